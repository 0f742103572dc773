import sys,re,random,subprocess; sys.path.insert(0,'/tmp/burnfm')
from dec import *
src=open('/repo/src/fm_script_engine/fm_script_engine_instructions.rs').read()
i=src.index('INSTRUCTIONMAP : '); i=src.index('= [',i); j=src.index('];',i)
body=re.sub(r'//.*','',src[i+3:j])
MAP=[]
for m in re.finditer(r'None|Some\(Instruction::(\w+)\)',body): MAP.append(m.group(1))
assert len(MAP)==255,len(MAP)
dbt=[(int(a,16),int(b,16),c) for a,b,c in re.findall(r"\(0x([0-9a-f]+), 0x([0-9a-f]+), '(\\0|.)'\)",open('/repo/src/dbcharconv.rs').read())]
DB={(a,b):('\0' if c=='\\0' else c) for a,b,c in dbt}
def fsd(b):
    try: return bytes(c^0x5a for c in b).decode('utf8')
    except UnicodeDecodeError: return 'value not utf-8.'
def un(x):
    if x is None: raise Panic('unwrap')
    return x
def decode_bytes(b):
    s=''.join(DB.get((b[i],b[i+1]),'?') for i in range(0,len(b)-1,2))
    if not s.endswith('\0'): raise Panic('suffix')
    return s[:-1]
def calc(b):
    it=iter(b); r=''
    S={4:'(',5:')',0x2d:'Abs',0x9b:'Get',0x9d:'Acos',0x25:'+',0x26:'-',0x27:'*',0x28:'/',0x41:'<',0x43:'<=',0x44:'==',0x46:'!=',0x47:'>=',0x49:'>',0x50:'&',0xc:' '}
    for c in it:
        if c in S: r+=S[c]
        elif c==0x9c: r+={0x1d:'CurrentTime',0x20:'AccountName',0x49:'DocumentsPath',0x5d:'DocumentsPathListing'}.get(un(next(it,None)),'')
        elif c==0xfb:
            if un(next(it,None))==3: r+='Char'
        elif c==0x10:
            for k in range(19):
                cur=next(it,None)
                if k==8: r+=str(un(cur))
        elif c in (0x13,0x1a):
            n=un(next(it,None)); s=''
            for _ in range(n): s+=chr(un(next(it,None)))
            t=fsd(s.encode('utf8')); r+= '"'+t+'"' if c==0x13 else t
    return r
def sub(a,b,rel):
    if a<b:
        if rel: return (a-b)%2**64
        raise Panic('sub')
    return a-b
def from_bytes(b,rel):
    sl(b,0,4); bd=sl(b,4,len(b))
    pos=0
    for k in range(len(bd)-1):
        if bd[k]==65 and bd[k+1]==50: pos=k;break
    ps=sub(pos,1,rel)
    n=at(bd,ps); pb=sl(bd,ps+3,ps+3+n)
    out=b''.join({50:b'',65:bytes([96]),218:bytes([117]),219:bytes([116,116])}.get(x,bytes([x])) for x in pb)
    fs=ps+3+n+1; fl=at(bd,fs-1); fn=fsd(sl(bd,fs,fs+fl))
    return (fsd(sl(bd,1,ps)),fsd(out),fn)
def decompile(buf,rel=False,fuel=10**6):
    F=dict(tables={},rels={},layouts={},scripts={},occs={},ds={})
    segs={}; names=[]
    def sec(st):
        s=sl(buf,st,len(buf)); at(s,0);at(s,1); sl(s,4,8); n=gint(sl(s,8,12)); sl(s,20,len(s)); return n
    nb=sec(4096)
    idx=2
    while idx!=0:
        fuel-=1
        if fuel<0: return None
        st=idx*4096; 
        if idx>nb: # sectors[idx] is evaluated after get_sector
            sec(st); raise Panic('sector index')
        nxt=sec(st); o=st+20; path=[]
        while o<st+4096:
            fuel-=1
            if fuel<0: return None
            o,(ty,code,data,rd,seg,rs)=chunk(buf,o,path,st)
            d0=data if data is not None else b'\0'
            p=path
            if p==[3,17,5,0,251]:
                if ty=='data':
                    t1=len(F['occs'])&0xffff; t2=at(data,2)
                    if not any(x['t1']==t2 and x['t2']==t1 for x in F['rels'].values()):
                        F['rels'][len(F['rels'])+1]=dict(t1=t1,t2=t2,f1=0,f2=0,c=0)
            elif p[:4]==[3,17,5,0]:
                if rs==2:
                    ta=at(un(data),6); at(data,2); F['occs'][len(F['occs'])+1]=['',ta]
                elif rs==16:
                    F['occs'].setdefault; 
                    if len(F['occs']) not in F['occs']: raise Panic('u')
                    F['occs'][len(F['occs'])][0]=fsd(d0)
            elif len(p)==5 and p[:3]==[3,251,5] and p[4]==3:
                if rs==1:
                    c=at(un(data),0); c=c if c<=6 else 0
                    f1=sub(gpi(sl(data,2,4)),128,rel); f2=sub(gpi(sl(data,5,7)),128,rel)
                    if p[3] in F['rels']: F['rels'][p[3]].update(c=c,f1=f1&0xffff,f2=f2&0xffff)
            elif p[:2]==[4,5]: pass
            elif len(p)>=4 and p[:3]==[4,1,7]:
                if ty=='push': F['layouts'][p[3]]=['',0]
                elif rs==2:
                    if p[3] in F['layouts']: F['layouts'][p[3]][1]=sub(at(un(data),1),128,rel)
                elif rs==16:
                    if p[3] in F['layouts']: F['layouts'][p[3]][0]=fsd(un(data))
            elif len(p)==4 and p[1:3]==[3,5]:
                if p[0]>=128:
                    t=p[0]-128
                    if ty=='push':
                        F['tables'].setdefault(t,['',{}])[1][p[3]]=dict()
                    else:
                        k=rs or 0
                        if k in (2,3,16,129,130):
                            if t not in F['tables'] or p[3] not in F['tables'][t][1]: raise Panic('u')
                            F['tables'][t][1][p[3]][k]=fsd(d0)
            elif p==[3,16,1,1]: pass
            elif len(p)==4 and p[:3]==[3,16,5]:
                if ty=='push':
                    if p[3] not in F['tables']: F['tables'][sub(p[3],128,rel)]=['',{}]
                elif rs==16:
                    t=sub(p[3],128,rel)
                    if t not in F['tables']: raise Panic('u')
                    F['tables'][t][0]=fsd(d0)
            elif len(p)==4 and p[:2]==[17,5] and p[3]==4:
                if ty=='push': segs.setdefault(p[2],{})
                elif ty=='seg':
                    if p[2] not in segs: raise Panic('u')
                    segs[p[2]][seg]=data
            elif len(p)==7 and p[:2]==[17,5] and p[3]==5 and p[5:]==[128,5]:
                if rs==5:
                    if p[2] not in F['scripts']: raise Panic('u')
                    ins=F['scripts'][p[2]][1]
                    c=[x for x in ins if x[2]==p[4]]
                    if not c: raise Panic('i')
                    if c[0][0]=='SetVariable': c[0][1].append(fsd(d0))
                    elif c[0][0]=='ExitScript': c[0][1].append(calc(un(data)))
            elif len(p)==6 and p[:2]==[17,5] and p[3]==5 and p[5]==128:
                if rs==1:
                    if p[2] not in F['scripts']: raise Panic('u')
                    c=[x for x in F['scripts'][p[2]][1] if x[2]==p[4]]
                    if not c: raise Panic('i')
                    if c[0][0]=='SetVariable': c[0][1].append(fsd(d0))
            elif len(p)==7 and p[:2]==[17,5] and p[3]==5 and p[5:]==[129,5]:
                if rs==5:
                    s=calc(un(data))
                    if p[2] not in F['scripts']: raise Panic('u')
                    c=[x for x in F['scripts'][p[2]][1] if x[2]==p[4]]
                    if not c: raise Panic('i')
                    c[0][1].append(s)
                if p[2] not in F['scripts']: raise Panic('u')
            elif len(p)>=3 and p[:2]==[17,5]:
                if ty in('pop','push'): continue
                if seg==4 or rs==4:
                    for k in range(0,len(data),28):
                        ins=data[k:k+28]
                        if len(ins)>=21:
                            oc=MAP[at(ins,21)] if at(ins,21)<255 else (_ for _ in ()).throw(Panic('map'))
                            if oc is not None:
                                sw=[]
                                if oc=='PerformScript':
                                    if ins[8] not in F['scripts']: raise Panic('u')
                                    sw.append(F['scripts'][ins[8]][0])
                                n=gpi(sl(ins,2,ins[0]+1))
                                if p[2] not in F['scripts']: raise Panic('u')
                                h=F['scripts'][p[2]][1]
                                if seg==4:
                                    if n>len(h): raise Panic('insert')
                                    h.insert(n,[oc,sw,n])
                                else: h.append([oc,sw,n])
            elif len(p)>=4 and p[:2]==[17,1]:
                if ty=='ref' and rs==16:
                    if p[3] in F['scripts']: F['scripts'][p[3]][0]=fsd(d0)
                    else: F['scripts'][p[3]]=[fsd(un(data)),[]]
            elif p==[32,1,1]:
                if ty=='data': names.append(decode_bytes(un(data)))
            elif p==[32,1,3]: pass
            elif len(p)>=3 and p[:2]==[32,5]:
                if ty=='push':
                    i=gint(un(data))
                    if names: F['ds'][i]=dict(n=names.pop(0),l=('','',''),u='')
                elif ty=='ref' and rs==130:
                    if code==6:
                        l=from_bytes(data,rel)
                        if p[2] in F['ds']: F['ds'][p[2]]['l']=l
                    else:
                        if p[2] in F['ds']: F['ds'][p[2]]['u']=fsd(data)
        idx=nxt
    for s,sg in segs.items():
        b=b''.join(sg[k] for k in sorted(sg))
        for k in range(0,len(b),28):
            ins=b[k:k+28]
            if len(ins)<28: continue
            if ins[21]>=255: raise Panic('map')
            oc=MAP[ins[21]]
            if oc is not None:
                sw=[]
                if oc=='PerformScript':
                    if ins[8] not in F['scripts']: raise Panic('u')
                    sw.append(F['scripts'][ins[8]][0])
                n=gpi(sl(ins,2,ins[0]+1))
                if s not in F['scripts']: raise Panic('u')
                F['scripts'][s][1].append([oc,sw,n])
    return F
CMP=['equal','notEqual','less','lessEqual','greater','greaterEqual','cartesian']
def q(s): return '.'.join(str(ord(c)) for c in s)
def dump(F):
    L=[]
    for i,t in sorted(F['tables'].items()):
        L.append(f"T {i} {q(t[0])}")
        for j,f in sorted(t[1].items()): L.append(f"f {j} "+'|'.join(q(f.get(k,'')) for k in (2,3,16,129,130)))
    for i,t in sorted(F['occs'].items()): L.append(f"O {i} {q(t[0])} {t[1]}")
    for i,t in sorted(F['layouts'].items()): L.append(f"L {i} {q(t[0])} {t[1]}")
    for i,t in sorted(F['rels'].items()): L.append(f"R {i} {t['t1']} {t['f1']} {t['t2']} {t['f2']} {CMP[t['c']]}")
    for i,t in sorted(F['scripts'].items()):
        L.append(f"S {i} {q(t[0])}")
        for op,sw,n in t[1]: L.append(f"s {op[0].lower()+op[1:]} {n} "+'|'.join(q(x) for x in sw))
    for i,t in sorted(F['ds'].items()): L.append(f"D {i} {q(t['n'])} {'|'.join(q(x) for x in t['l'])} {q(t['u'])}")
    return ';'.join(L)
