import re,sys
sys.path.insert(0,'/tmp/burnfm')
from vm import Panic,isfloat,oftext,totext,WS,q
class Err(Exception): pass
def nx(it):
    for x in it: return x
    raise Panic()
class It:
    def __init__(s,l): s.l=l;s.i=0
    def next(s):
        if s.i<len(s.l): s.i+=1; return s.l[s.i-1]
        return None
    def must(s):
        r=s.next()
        if r is None: raise Panic()
        return r
    def peek(s): return s.l[s.i] if s.i<len(s.l) else None
KW={'table':'Table','relationship':'Relationship','value_list':'ValueList','table_occurence':'TableOccurence','script':'Script','test':'Test','end':'End'}
def tokenize(code):
    L=[];buf='';ins=inc=insc=False;it=It(code)
    def fl(b):
        if b in KW: return (KW[b],'')
        if isfloat(b): return ('Num',totext(oftext(b)))
        if not '0'<=b[0]<='9': return ('Id',b)
        return None
    while True:
        c=it.next()
        if c is None: break
        if c in WS and buf=='': continue
        while ins:
            if c=='"': L.append(('String',buf)); ins=False; buf=''
            buf+=c; c=it.must()
        while insc:
            if c==']': L.append(('Script',buf)); insc=False; buf=''; break
            buf+=c; c=it.must()
        while inc:
            if c=='}': L.append(('Calculation',buf)); inc=False; buf=''
            buf+=c; c=it.must()
        tmp=[]
        if c in WS:
            if buf:
                o=fl(buf)
                if o: tmp.append(o); buf=''
        elif c=='(':
            if len(L)<2: raise Panic()
            if buf:
                o=fl(buf)
                if o: tmp.append(o)
                buf=''
            tmp.append(('(',''))
        elif c in '=[])"!{};:,':
            if buf:
                o=fl(buf)
                if o: tmp.append(o)
                buf=''
            if c=='=':
                n=it.peek()
                if n is not None:
                    if n=='=': tmp.append(('EComp','')); it.next()
                    else: tmp.append(('Assign',''))
            elif c=='"': ins=True
            elif c=='[':
                tmp.append(('[',''))
                if not L: raise Panic()
                insc=True
            elif c=='{': tmp.append(('{','')); inc=True
            else: tmp.append((c,''))
        else: buf+=c
        if tmp: L+=tmp; buf=''
    return L
def sctoks(code):
    R=[];buf='';it=It(code)
    def fl(b):
        m={'define':'Define','let':'Let','loop':'Loop','if':'If','elif':'Elif','else':'Else'}
        if b in m: return (m[b],'')
        return ('Num' if isfloat(b) else 'Id',b)
    while True:
        c=it.next()
        if c is None: break
        if buf=='' and c in WS: continue
        if c in WS:
            if buf: R.append(fl(buf)); buf=''
        elif c=='(':
            if buf: R.append(fl(buf)); buf=''
            st=0;ins=False
            while True:
                d=it.next()
                if d is None: break
                if d==' ':
                    if not ins and buf=='': continue
                    buf+=d
                elif d=='"': ins=not ins; buf+=d
                elif d==')':
                    if st==0: R.append(('Arg',buf)); buf=''; break
                    buf+=d; st-=1
                elif d=='(': st+=1; buf+=d
                elif d==',':
                    if st==0: R.append(('Arg',buf)); buf=''
                    else: buf+=d
                else: buf+=d
            buf=''
        elif c in '{},;+-*/&':
            if buf: R.append(fl(buf)); buf=''
            R.append((c,''))
        elif c in '!=':
            if buf: R.append(fl(buf)); buf=''
            n=it.peek()
            if n is None: raise Panic()
            if n!='=': R.append(('Assign',''))
            else: it.next(); R.append(('Neq' if c=='!' else 'Eq',''))
        elif c in '<>':
            if buf: R.append(fl(buf)); buf=''
            n=it.peek()
            if n is None: raise Panic()
            it.next(); R.append((c+('=' if n=='=' else ''),''))
        else: buf+=c
    return R
src=open('/repo/src/fm_script_engine/fm_script_engine_instructions.rs').read()
src=src[src.index('fn from_str'):]; src=src[:src.index('_ =>')]
FS={}
for m in re.finditer(r'((?:"[a-z_]+"\s*\|?\s*)+)=>\s*Ok\(Instruction::(\w+)\)',src):
    for w in re.findall(r'"([a-z_]+)"',m.group(1)): FS.setdefault(w,m.group(2))
def scripts(code):
    it=It(sctoks(code)); out=[]; punc=[]
    while True:
        t=it.next()
        if t is None: break
        if t[0]!='Define': continue
        name='';args=[];ins=[]
        p=it.must()
        if p[0]=='Id': name=p[1]
        while True:
            t=it.next()
            if t is None or t[0]=='{': break
            if t[0]=='Arg': args.append(t[1])
        while True:
            t=it.next()
            if t is None: break
            k=t[0]
            if k=='Id':
                if t[1] in FS:
                    sw=[]
                    while True:
                        u=it.next()
                        if u is None: break
                        if u[0]=='Arg': sw.append(u[1])
                        else:
                            if u[0]!=';': raise Panic()
                            ins.append((FS[t[1]],sw)); break
            elif k=='}':
                if not punc: break
                n=it.peek()
                if n is not None and n[0] in('Else','Elif'): continue
                ins.append(('EndIf' if punc.pop()=='If' else 'EndLoop',[]))
            elif k=='{': pass
            elif k in('Loop','Else'):
                if it.must()[0]!='{': break
                ins.append((k,[]))
                if k=='Loop': punc.append('Loop')
            elif k in('Elif','If'):
                sw=[]
                while True:
                    u=it.next()
                    if u is None: break
                    if u[0]=='Arg': sw.append(u[1])
                    else:
                        if u[0]!='{': raise Panic()
                        ins.append(('ElseIf' if k=='Elif' else 'If',sw)); break
                if k=='If': punc.append('If')
        out.append((name,args,ins))
    return out
def program(code):
    it=It(tokenize(code))
    F={'tables':{},'rels':{},'vls':{},'scripts':{},'occs':{},'tests':[]}
    def pk(k,b=None):
        p=it.peek()
        if p is None: raise Panic()
        return p[0]==k
    def end(kw):
        n=it.must()
        if n[0]!=kw: raise Err()
        if it.must()[0]!=';': raise Err()
    while True:
        t=it.next()
        if t is None: break
        k=t[0]
        if k in('Table','ValueList'):
            if not pk('Id'): raise Err()
            nm=it.must()[1]
            while True:
                n=it.next()
                if n is None: break
                if n[0]=='End': end(k); break
            d=F['tables' if k=='Table' else 'vls']; d[len(d)+1]=nm
        elif k=='Relationship':
            if not pk(':'): raise Err()
            a=b=''
            while True:
                n=it.next()
                if n is None: break
                if n[0]=='Id':
                    if pk(':'): a=n[1]; it.next(); b=it.must()[1]
                elif n[0]=='End': end(k); break
            F['rels'][len(F['tables'])+1]=(a,b)
        elif k=='Script':
            if not pk(':'): raise Err()
            it.next()
            if not pk('['): raise Err()
            it.next()
            for s in scripts(it.must()[1]): F['scripts'][len(F['scripts'])+1]=s
            if it.must()[0]!=']': raise Err()
        elif k=='TableOccurence':
            if not pk('Id'): raise Err()
            nm=it.must()[1];ac=''
            while True:
                n=it.next()
                if n is None: break
                if n[0]=='Table':
                    if it.must()[0]!=':': raise Err()
                    n=it.must()
                    if n[0]!='Id': raise Err()
                    ac=n[1]
                elif n[0]=='End': end(k); break
            F['occs'][len(F['occs'])]=(nm,ac)
        elif k=='Test':
            if not pk('Id'): raise Err()
            nm=it.must()[1]; sc=('',[],[])
            while True:
                n=it.next()
                if n is None: break
                if n[0]=='Script':
                    if it.must()[0]!=':': raise Err()
                    if it.must()[0]!='[': raise Err()
                    ss=scripts(it.must()[1])
                    if len(ss)>1: raise Err()
                    if not ss: raise Panic()
                    sc=ss[0]
                elif n[0]=='End': end(k); break
            F['tests'].append((nm,sc))
        else: raise Err()
    return F
def ds(s): return q(s[0])+'('+','.join(map(q,s[1]))+')'+'/'.join(o[0].lower()+o[1:]+':'+'|'.join(map(q,sw)) for o,sw in s[2])
def dumpF(F):
    L=[]
    for k in sorted(F['tables']): L.append(f"T {k} {q(F['tables'][k])}")
    for k in sorted(F['rels']): L.append(f"R {k} {q(F['rels'][k][0])} {q(F['rels'][k][1])}")
    for k in sorted(F['vls']): L.append(f"V {k} {q(F['vls'][k])}")
    for k in sorted(F['occs']): L.append(f"O {k} {q(F['occs'][k][0])} {q(F['occs'][k][1])}")
    for k in sorted(F['scripts']): L.append(f"S {k} "+ds(F['scripts'][k]))
    for nm,s in F['tests']: L.append(f"E {q(nm)} "+ds(s))
    return ';'.join(L)
def run(code):
    try: return 'ok '+dumpF(program(code))
    except (Panic,Err): return 'panic'
