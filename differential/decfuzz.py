import sys; sys.path.insert(0,'/tmp/burnfm')
from decomp import *
seed=int(sys.argv[1]); N=int(sys.argv[2]); random.seed(seed)
R=random
def dirs():
    x=R.choice([1,2,3]); s=R.choice([1,2]); stp=R.choice([1,2,3,130])
    return R.choice([[3,17,5,0],[3,17,5,0,251],[3,251,5,x,3],[4,5,x],[4,1,7,x],[4,1,7,x,9],[R.choice([127,128,129,130]),3,5,R.choice([1,2,200])],[3,16,5,R.choice([129,130,129,128,1,127])],
      [17,5,s,4],[17,5,s],[17,5,s,5,stp,128,5],[17,5,s,5,stp,128],[17,5,s,5,stp,129,5],[17,1,1,s],[17,1,s],[32,1,1],[32,1,3],[32,5,x],[32,5,x,2],[9,9]])
def push(n):
    if n==0 and R.random()<.8: return bytes([0x30,208,0,R.randrange(9)])
    if n>=128 and R.random()<.7: return bytes([0x28,R.randrange(256),n-128])
    if R.random()<.02: return bytes([0x38,R.choice([2,3]),0,n&127,7][:5])
    return bytes([0x20,n])
def kv(k,d):
    if k>=128 and R.random()<.9:
        return bytes([0xe,R.choice([0,128]),k-128,len(d)])+d
    n=len(d)
    if n in(0,2,4,6,8) and R.random()<.6: return bytes([1+n//2,k])+d if n else bytes([6,k,0])
    return bytes([6,k,n])+d
def step():
    ins=[0]*28
    for i in range(28): ins[i]=R.randrange(256)
    ins[0]=R.choice([2,2,2,3,3,1,0,40]) if R.random()<.3 else 2
    ins[2]=R.choice([1,2,0,3]); ins[8]=R.choice([1,2,2,9] if R.random()<.2 else [1,2]); ins[21]=R.choice([1,141,103,68,72,255 if R.random()<.1 else 141,R.randrange(200)])
    return bytes(ins)
def blob():
    r=R.random()
    if r<.25: return bytes(c^0x5a for c in R.choice(['a','bc','PrimaryKey','ä€','',' x']).encode())
    if r<.4: return bytes(R.randrange(256) for _ in range(R.randrange(12)))
    if r<.6: return bytes(R.choice([0,1,2,3,4,128,129,130,208]) for _ in range(R.choice([3,5,7,7,8,10])))
    if r<.8: # calc
        out=b''
        for _ in range(R.randrange(5)):
            out+=R.choice([bytes([R.choice([4,5,0x2d,0x9b,0x9d,0x25,0x26,0x27,0x28,0x41,0x43,0x44,0x46,0x47,0x49,0x50,0xc,7])]),bytes([0x9c,R.choice([0x1d,0x20,0x49,0x5d,1])]),bytes([0xfb,R.choice([3,4])]),bytes([0x10]+[R.randrange(256)]*19),bytes([0x13,2,0x3b,R.randrange(256)]),bytes([0x1a,1,0x22])])
        return out[:R.choice([len(out)]*9+[max(0,len(out)-1)])]
    if r<.9:
        t=b''.join([bytes([0,0,0,0]),bytes([R.randrange(1,9)]),bytes(c^0x5a for c in b'file'),bytes([3]),b'A2',bytes([R.choice([65,50,218,219,59]) for _ in range(3)]),bytes([2]),b'\x3b\x3b'])
        return t
    return b''.join(step() for _ in range(R.randrange(3)))+bytes(R.choice([0,0,0,3,21,22]))
DBL=[(a,b) for a,b in DB]
def content():
    r=R.random()
    if r<.55: return kv(R.choice([1,2,3,4,5,16,16,2,130,130,129,131]),blob()[:200])
    if r<.65: d=blob(); return bytes([7,R.choice([1,2,4,4,5])])+len(d).to_bytes(2,'big')+d
    if r<.7: return bytes([0x10])+bytes([208,0,R.choice([1,2,3])])
    if r<.8: return bytes([0x12])+bytes([208,0,R.choice([1,2,3]),1,1])
    if r<.9:
        d=b''.join(bytes(R.choice(DBL)) for _ in range(R.randrange(3)))+R.choice([b'\0\0']*5+[b''])
        return bytes([0x23,len(d)])+d
    if r<.95: return b'\x80'
    return R.choice([b'\0\0',bytes([0x16,1,2,3,1,9]),bytes([0x1e,1,2,1,3]),bytes([0x40]),bytes([0xc0|0x01,5,6])])
def sector(nxt,good):
    out=b''; path=[]
    # setup so that things exist
    while len(out)<R.choice([300,900,1500]):
        d=dirs()
        out+=b'\x40'*len(path); path=d
        for n in d: out+=push(n)
        for _ in range(R.choice([0,1,1,2,3])): out+=content()
    out=out[:4000]
    pad=4096-20-len(out)
    fill=b'\x40'*8+b'\x80'*max(0,pad-8)
    body=(out+fill)[:4076]
    return bytes([0,0,0,0])+bytes(4)+nxt.to_bytes(4,'big')+bytes(8)+body
def setup():
    out=b''
    for s in (1,2):
        out+=bytes([0x20,17,0x20,1,0x20,1,0x20,s])+kv(16,bytes(c^0x5a for c in b'scr'))+b'\x40'*4
        out+=bytes([0x20,17,0x20,5,0x20,s])+kv(4,bytes([2,0,1]+[0]*18+[141]+[0]*6+[2,0,2]+[0]*18+[103]+[0]*6))+b'\x40'*3
    for t in (128,129,130):
        for f in (1,2): out+=push(t)+bytes([0x20,3,0x20,5,0x20,f])+b'\x40'*4
    out+=bytes([0x20,3,0x20,17,0x20,5,0x30,208,0,1])+kv(2,bytes(7))+b'\x40'*4
    return out
import os
files=[];
for n in range(N):
    k=R.choice([1,1,2])
    secs=[sector((3+i if i+1<k else 0),1) for i in range(k)]
    if R.random()<.8:
        s=setup(); secs[0]=secs[0][:20]+(s+secs[0][20:])[:4076]
    nb=R.choice([k+2,k+1,k+1,k+1,k])
    buf=bytes(4096)+bytes(8)+nb.to_bytes(4,'big')+bytes(4084)+b''.join(secs)
    if R.random()<.05: buf=buf[:len(buf)-R.randrange(1,300)]
    fn=f'/tmp/burnfm/f/{n}.bin'; open(fn,'wb').write(buf); files.append((fn,buf))
for prof in ('debug','release'):
    exp=[]
    for fn,buf in files:
        try:
            r=decompile(buf,prof=='release'); exp.append('fuel' if r is None else dump(r))
        except Panic: exp.append('panic')
    out=subprocess.run(['lake','env','lean','--run','/tmp/burnfm/decomp.lean',prof]+[f for f,_ in files],cwd='/verif/lean',capture_output=True,text=True)
    got=out.stdout.rstrip('\n').split('\n')
    bad=[(f[0],e,g) for f,e,g in zip(files,exp,got) if e!=g]
    print(prof,len(got),len(exp),'bad',len(bad),'panics',sum(e=='panic' for e in exp),out.stderr[:300])
    for b in bad[:3]: print(b)
