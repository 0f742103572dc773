import re,sys,hashlib
sys.path.insert(0,'/tmp/burnfm')
from vm import Panic
mp=[]
s=open('/repo/src/dbcharconv.rs').read(); s=s[:s.index('pub fn decode_char')]
for m in re.finditer(r"\(\s*0x([0-9a-fA-F]+)\s*,\s*0x([0-9a-fA-F]+)\s*,\s*'((?:\\.|[^\\'])+)'\s*\)",s):
    ch=m.group(3); ch={'\\0':'\0',"\\'":"'",'\\\\':'\\','\\"':'"','\\n':'\n','\\t':'\t','\\r':'\r'}.get(ch,ch); assert len(ch)==1,ch
    mp.append((int(m.group(1),16),int(m.group(2),16),ch))
h=open('/repo/src/compile/header.rs').read(); h=h[h.index('HEADER_INIT'):]; h=h[h.index('=')+1:]; h=h[h.index('[')+1:h.index(']')]
HEADER=bytes(int(x,0) for x in re.findall(r'0x[0-9a-fA-F]+|\d+',h))
a=open('/repo/src/compile/assembler.rs').read(); a=a[a.index('pub fn emit_init_blobs'):a.index('pub fn emit_table_metadata')]
BLOBS=[(int(k),bytes(int(x) for x in v.split(','))) for k,v in re.findall(r'emit_simple_kv\((\d+), &\[([^\]]*)\]\)',a)]
def enc(t):
    out=b''
    for c in t:
        l=chr(ord(c)+32) if 'A'<=c<='Z' else c
        for x,y,z in mp:
            if z==l: out+=bytes([x,y]); break
        else: out+=b'\0\0'
    return out
def ppi(n):
    if n>=128:
        x=n-128; return bytes([((x>>8)&0x7f)|0x80|0x7c,x&255])
    return bytes([n])
class A:
    def __init__(s,dbg): s.b=bytearray();s.i=0;s.dbg=dbg
    def put(s,x):
        if s.i>=len(s.b): raise Panic()
        s.b[s.i]=x&255; s.i+=1
    def spl(s,at,d):
        if at+len(d)>len(s.b): raise Panic()
        s.b[at:at+len(d)]=d
    def data(s,d): s.spl(s.i,d); s.i+=len(d)
    def put_int(s,n):
        r=[0]*4;i=3
        while n>0:
            if i<0: raise Panic()
            r[i]=n%256;n//=256;i-=1
            if i<0 and s.dbg: raise Panic()
        return bytes(r)
    def push(s,d):
        p=ppi(d); s.put({1:0x20,2:0x28}[len(p)]); s.data(p); s.put(0x80)
    def pop(s): s.put(0x40)
    def lkv(s,k,v): s.put(0x1e); s.put(len(k)); s.data(k); s.put(len(v)); s.data(v)
    def kve(s,k,v): s.put(0xe); s.data(ppi(k)); s.put(len(v)); s.data(v)
    def kv(s,k,v):
        if k in(16,216): ins=6
        else:
            ins=((len(v)+2)//2)&255
            if ins>5: ins=6
        s.put(ins)
        if 1<=ins<=5: s.put(k); s.data(v)
        elif ins==6: s.put(k); s.put(len(v)); s.data(v)
    def d1b(s,d): s.put(0x1b); s.put(len(d)); s.data(d); s.i+=4
    def blank(s): s.b+=bytes(4096); s.i=len(s.b)-4095
    def nxt(s,n): s.spl(s.i+8,n.to_bytes(4,'big'))
    def empty(s,d): s.push(d); s.pop()
def assemble(f,dbg):
    s=A(dbg); s.b+=HEADER; s.spl(3082,(f['name']+'/').encode())
    s.blank(); s.nxt(4); s.blank(); s.nxt(3); s.i+=20; s.put(0x80)
    s.push(2)
    for k,v in BLOBS: s.kv(k,v)
    s.pop()
    s.push(3);s.push(16);s.push(1);s.push(1)
    for k,nm in f['tables']: s.lkv(enc(nm)+b'\0\0\0',bytes([2,128,k&255]))
    s.pop();s.push(3)
    for k,nm in f['tables']: s.lkv(s.put_int(k),(k%2**32).to_bytes(4,'big'))
    s.pop(); s.kv(4,s.put_int(len(f['tables']))); s.kv(216,bytes(c^0x5a for c in b'hello'))
    for k in(129,130): s.kve(k,bytes([59,62,55,51,52]))
    s.push(5)
    for k,nm in f['tables']:
        d=128+k%2**32
        if d>=2**32:
            if dbg: raise Panic()
            d%=2**32
        s.push(d); s.pop()
    s.pop();s.pop();s.pop()
    s.push(17);s.push(1);s.kv(0,bytes([3,208,0,9]));s.push(1)
    for k,nm in f['occs']: s.d1b(enc(nm+'\0\0'))
    s.pop();s.push(3)
    for k,nm in f['occs']: s.d1b(s.put_int(k))
    s.pop();s.push(8)
    for _ in range(4): s.pop()
    s.push(4);s.push(1);s.kv(0,bytes([1,f['nl']&255]));s.push(5)
    for _ in range(3): s.pop()
    s.empty(6)
    s.push(17);s.push(1);s.kv(0,bytes([1,f['ns']&255]));s.push(1)
    for _ in range(3): s.pop()
    for d in(23,6,25,65): s.empty(d)
    s.blank(); s.nxt(4); s.i+=20; s.blank(); s.nxt(0)
    return bytes(s.b)
def h(b):
    x=0
    for c in b: x=(x*131+c+1)%(2**61-1)
    return x
