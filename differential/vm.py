import re,sys
from fractions import Fraction
sys.setrecursionlimit(6000)
class Panic(Exception): pass
class Fuel(Exception): pass
LIM=300
FL=re.compile(r'[+-]?(?:(?i:inf|infinity|nan)|(?:[0-9]+\.?[0-9]*|\.[0-9]+)(?:[eE][+-]?[0-9]+)?)')
def isfloat(s): return FL.fullmatch(s) is not None
def dv(s):
    n=0
    for c in s: n=10*n+max(0,ord(c)-48)
    return n
def oftext(s):
    neg=s[:1]=='-'; t=s[1:] if neg else s
    w,_,f=t.partition('.')
    v=Fraction(dv(w+f),10**len(f))
    return -v if neg else v
def totext(x):
    n=abs((x*100).numerator)
    sg='-' if x<0 else ''
    w=str(n//100)
    if n%100==0: return sg+w
    if n%10==0: return sg+w+'.'+str(n%100//10)
    return sg+w+'.'+str(n%100)
def lex(calc):
    toks=[];buf='';i=0;n=len(calc)
    def flush():
        nonlocal buf
        if len(buf)>0:
            b=buf;buf=''
            if isfloat(b): toks.append(('num',totext(oftext(b))))
            elif not ('0'<=b[0]<='9'): toks.append(('id',b))
            else: raise Panic()
    one={'(':'open',')':'close','+':'+',',':',','-':'-','*':'*','/':'/','&':'&'}
    while i<n:
        c=calc[i];i+=1
        if c in WS and buf=='': continue
        if c==' ': flush()
        elif c in one: flush(); toks.append((one[c],''))
        elif c in '!=<>':
            flush()
            if i>=n: raise Panic()
            if c=='!':
                if calc[i]=='=': toks.append(('!=',''));i+=1
            elif c=='=':
                if calc[i]=='=': toks.append(('==',''))
            else: toks.append((c+'=' if calc[i]=='=' else c,''))
        elif c=='"':
            flush(); buf=c
            while i<n:
                d=calc[i];i+=1;buf+=d
                if d=='"': break
            if any(ch.isascii() and ch.isalnum() for ch in buf): toks.append(('str',buf))
            buf=''
        elif c==':':
            buf+=c
            if not(i<n and calc[i]==':'): buf+=c
            if i<n: i+=1
            buf+=c
            while i<n:
                buf+=calc[i];i+=1
                if i>=n or not (calc[i].isascii() and calc[i].isalnum()): break
            toks.append(('id',buf));buf=''
        else: buf+=c
    flush()
    return toks
WS='\t\n\x0b\x0c\r \x85\xa0　'
class P:
    def __init__(s,t): s.t=t;s.i=0
    def cur(s):
        if s.i>=len(s.t): raise Panic()
        return s.t[s.i]
    def next(s):
        if s.i==len(s.t)-1: return False
        s.i+=1; return True
    def peek(s):
        return None if s.i==len(s.t)-1 else s.t[s.i+1][0]
    def comparison(s):
        l=s.concat()
        while True:
            op=s.cur()[0]
            if not s.next(): break
            if op in('==','!=','<','<=','>','>='): l=('cmp',l,op,s.concat())
            else: break
        return l
    def concat(s):
        l=s.expr()
        while s.cur()[0]=='&':
            s.next(); l=('cat',l,s.expr())
        return l
    def expr(s):
        l=s.term()
        while s.cur()[0] in '+-':
            o=s.cur()[0]; s.next(); l=('bin',l,o,s.term())
        return l
    def term(s):
        l=s.factor()
        while s.cur()[0] in '*/':
            o=s.cur()[0]; s.next(); l=('bin',l,o,s.factor())
        return l
    def factor(s):
        t,v=s.cur()
        if t=='open': s.next(); return s.comparison()
        if t not in('num','id','str'): raise Panic()
        if t=='num': e=('num',oftext(v)) if isfloat(v) else None
        elif t=='str': e=('str',v)
        elif len(v.split('::'))==2: e=('var',v)
        elif s.peek()=='open':
            args=[]
            while True:
                s.next(); args.append(s.expr())
                if s.cur()[0]!=',': break
            e=('call',v,args)
        else: e=('var',v)
        s.next()
        return e
def idx(l,i):
    if not 0<=i<len(l): raise Panic()
    return l[i]
class Env:
    def __init__(E,file,debug):
        E.file=file;E.debug=debug
        E.ip=[];E.vars=[];E.loops=[];E.fail=False;E.branch=False;E.mode='b';E.crit=[];E.out=[];E.test=None
        E.handle=0
        ts=file['tables']; E.tables=[{'name':'','fields':[]} for _ in range(max([k for k,_ in ts],default=0)+1)]
        for k,(nm,fs) in ts:
            F=[['',[]] for _ in range(max([j for j,_ in fs],default=0)+1)]
            for j,fn in fs: F[j]=[fn,[]]
            E.tables[k]={'name':nm,'fields':F}
        oc=file['occs']; E.handle=min([k for k,_ in oc],default=0)%65536
        E.occs=[{'found':[],'ptr':0,'table':0,'rel':[]} for _ in range(max([k for k,_ in oc],default=0)+1)]
        E.ind={}
        for k,(nm,tab) in oc:
            E.ind[nm]=k%65536; E.occs[k]={'found':[],'ptr':0,'table':tab,'rel':[]}
        E.graph={}
        for k,(t1,f1,t2,f2,c) in file['rels']:
            idx(E.occs,t1)['rel'].append((t2,f1,f2,c)); idx(E.occs,t2)['rel'].append((t1,f2,f1,c))
        E.lay={}
        for k,(nm,o) in file['layouts']: E.lay[nm]=o
    def cocc(E): return idx(E.occs,E.handle)
    def ctab(E): return idx(E.tables,E.cocc()['table'])
    def found_field(E,f):
        o=E.cocc();t=E.ctab();c=idx(o['found'],o['ptr'])
        for nm,r in t['fields']:
            if nm==f: return idx(r,c)
        return ''
    def operand(E,v,d=LIM):
        if d==0: raise Fuel()
        if isfloat(v): return v,True
        if v[:1]=='"' and v[-1:]=='"': return v,False
        p=v.split('::')
        if len(p)==2: return E.operand(E.found_field(p[1]),d-1)
        if not E.ip: raise Panic()
        m=idx(E.vars,len(E.ip)-1)
        if v not in m: return '',False
        return E.operand(m[v],d-1)
    def ev(E,n):
        k=n[0]
        if k=='num': return totext(n[1])
        if k=='str': return n[1]
        if k=='var': return E.operand(n[1])[0]
        if k=='bin':
            a=E.ev(n[1]);b=E.ev(n[3]);x=E.operand(a);y=E.operand(b)
            if not(x[1] and y[1]): return 'undefined'
            p,q=oftext(x[0]),oftext(y[0])
            return totext({'+':lambda:p+q,'-':lambda:p-q,'*':lambda:p*q,'/':lambda:p/q if q else Fraction(0)}[n[2]]())
        if k=='cat':
            a=E.ev(n[1]);b=E.ev(n[2]); return '"'+a.replace('"','')+b.replace('"','')+'"'
        if k=='cmp':
            a=E.ev(n[1]).encode();b=E.ev(n[3]).encode()
            return 'true' if {'==':a==b,'!=':a!=b,'<':a<b,'<=':a<=b,'>':a>b,'>=':a>=b}[n[2]] else 'false'
        nm,args=n[1],n[2]
        A=lambda i:E.ev(idx(args,i))
        if nm in('Abs','Acos'):
            v=A(0)
            if not isfloat(v): raise Panic()
            return nm+v
        if nm=='Asin':
            a=A(0);b=A(1); return b if b.encode()<a.encode() else a
        if nm=='Char':
            v=A(0)
            if not re.fullmatch(r'\+?[0-9]+',v) or int(v)>=2**32: raise Panic()
            x=int(v)
            if x>0x10ffff or 0xd800<=x<0xe000: raise Panic()
            return '"'+chr(x)+'"'
        if nm=='Min':
            best=None
            for a in args:
                w=E.ev(a)
                if best is None: best=w; continue
                l=E.operand(best);r=E.operand(w)
                if l[1] and r[1]: gt=oftext(l[0])>oftext(r[0])
                else: gt=l[0].encode()>r[0].encode()
                if gt: best=w
            if best is None: raise Panic()
            return best
        if nm=='Get':
            idx(args,0); return 'Unknown argument for Get()'
        return 'Unimplemented function: '+nm
    def calc(E,s):
        t=lex(s)
        ast=P(t).comparison()
        return E.ev(ast)
    def goto(E,n):
        o=E.cocc(); L=len(o['found'])
        if n>=L: o['ptr']=E.sub1(L)
        else: o['ptr']=n
    def sub1(E,L):
        if L==0:
            if E.debug: raise Panic()
            return 2**64-1
        return L-1
    def reset(E):
        o=E.cocc(); t=E.ctab(); o['found']=list(range(len(idx(t['fields'],0)[1])))
    def step(E):
        ns=len(E.ip)-1
        name,ip=E.ip[ns]
        code=[]
        if len(E.ip)>1:
            for k,(nm,ins) in E.file['scripts']:
                if nm==name: code=ins;break
        else: code=E.test[1]
        if ip>=len(code): E.ip.pop(); return
        op,sw=code[ip]
        def bump(): E.ip[ns]=(name,E.ip[ns][1]+1)
        def at(i): E.ip[ns]=(name,i)
        def S(i): return idx(sw,i)
        def strip(v):
            if v[-1:]!='"': raise Panic()
            v=v[:-1]
            if v[:1]!='"': raise Panic()
            return v[1:]
        def endloop(i):
            while True:
                o=idx(code,i)[0]; i+=1
                if o=='endLoop': return i
        if op=='performScript':
            nm=strip(E.calc(S(0))); E.vars.append({})
            for k,(n2,_) in E.file['scripts']:
                if n2==nm: bump(); E.ip.append((nm,0)); break
        elif op=='goToLayout':
            nm=strip(E.calc(S(0)))
            if nm in E.lay: E.handle=E.lay[nm]%65536
            bump()
        elif op=='goToRecordRequestPage':
            v=E.calc(S(0)); ex=False
            if len(sw)>1: E.calc(sw[1]); ex=True
            if E.mode=='b':
                c=E.cocc()['ptr']
                if re.fullmatch(r'\+?[0-9]+',v) and int(v)<2**64: E.goto(int(v))
                else:
                    o=E.cocc()
                    if v=='"previous"':
                        if o['ptr']>0: o['ptr']-=1
                    elif v=='"next"':
                        if o['ptr']<E.sub1(len(o['found'])): o['ptr']+=1
                    elif v=='"first"': o['ptr']=0
                    elif v=='"last"': o['ptr']=E.sub1(len(o['found']))
                if ex and E.cocc()['ptr']==c: at(endloop(ip)); return
            bump()
        elif op=='enterFindMode': E.mode='f'; bump()
        elif op=='performFind':
            recs=set()
            for nm,v in E.crit:
                f=idx(nm.split('::'),1)
                vals=idx([r for n2,r in E.ctab()['fields'] if n2==f],0)
                recs|={i for i,x in enumerate(vals) if x==v}
            E.reset()
            if recs: o=E.cocc(); o['found']=sorted(recs); o['ptr']=0
            E.mode='b';E.crit=[]; bump()
        elif op=='showAllRecords': E.reset(); bump()
        elif op=='setVariable':
            n=S(0); v=E.calc(S(1)); idx(E.vars,ns)[n]=v; bump()
        elif op=='setField':
            n=S(0); v=E.calc(S(1)); p=n.split('::')
            if E.mode=='b':
                a=p[0]; b=idx(p,1)
                if a not in E.ind: raise Panic()
                o=idx(E.occs,E.ind[a])
                if not 0<=o['ptr']<len(o['found']): raise Panic()
                r=o['found'][o['ptr']]
                F=idx([x for x in idx(E.tables,o['table'])['fields'] if x[0]==b],0)
                idx(F[1],r); F[1][r]=v
            else: E.crit.append((n,v))
            bump()
        elif op=='loop': E.loops.append(ip); bump()
        elif op in('iff','elseIf','els'):
            if op!='iff' and E.branch:
                while E.ip[ns][1]<len(code):
                    op2,sw2=code[E.ip[ns][1]]
                    if op2=='endIf': E.branch=False; return
                    bump()
                    sw=sw2
                if op=='els': bump(); return
            elif op=='els': bump(); return
            v=E.calc(S(0) if op!='elseIf' else idx(sw,0))
            if v=='true': bump(); E.branch=True
            else:
                if op=='elseIf': bump()
                while E.ip[ns][1]<len(code):
                    if code[E.ip[ns][1]][0] in('endIf','els','elseIf'): return
                    bump()
        elif op=='endIf': E.branch=False; bump()
        elif op=='endLoop': at(idx(E.loops,len(E.loops)-1)+1)
        elif op=='exitLoopIf':
            if E.calc(S(0))=='true': at(endloop(ip))
            else: bump()
        elif op=='newRecordRequest':
            t=E.ctab(); ti=E.cocc()['table']
            for f in t['fields']: f[1].append('')
            n=len(idx(t['fields'],0)[1])-1
            for o in E.occs:
                if o['table']==ti: o['found'].append(n); o['ptr']=len(o['found'])-1
            bump()
        elif op=='showCustomDialog': E.out.append('d'+q(E.calc(S(0)))); bump()
        elif op=='assert':
            if E.calc(S(0))=='false': E.out.append('a'+q(S(0))); E.fail=True
            bump()
        else: bump()
    def run(E,N):
        out=[]
        for nm,scr in E.file['tests']:
            E.test=scr; E.ip.append((scr[0],0)); E.vars.append({})
            k=0
            while not E.fail and E.ip:
                if k==N: raise Fuel()
                E.step(); k+=1
            out.append(not E.fail)
        return out
def path(E,a,b):
    g={}
    for k,(t1,f1,t2,f2,c) in E.file['rels']:
        for x,y in((t1,t2),(t2,t1)):
            l=g.setdefault(x,[])
            if y not in l: l.append(y)
    vis=[];Q=[(a,[a])]
    while Q:
        cur,p=Q.pop(0)
        for r in [x for x in g.get(cur,[]) if x not in vis]:
            if r==b: return p+[b]
            Q.append((r,p+[r])); vis.append(r)
    return None
def related(E,on,fn):
    if on not in E.ind: raise Panic()
    p=path(E,E.handle,E.ind[on])
    if p is None: return None
    cur=[]
    for a,b in zip(p,p[1:]):
        o=idx(E.occs,a)
        if not 0<=o['ptr']<len(o['found']): return None
        rec=o['found'][o['ptr']]
        rel=[x for x in o['rel'] if x[0]==b]
        if not rel: return None
        _,f1,f2,c=rel[0]
        if not cur: cur=[(rec,idx(idx(E.ctab()['fields'],f1)[1],rec))]
        rhs=idx(idx(E.tables,idx(E.occs,b)['table'])['fields'],f2)[1]
        new=[]
        for _,lv in cur:
            for i,rv in enumerate(rhs):
                L,Rr=lv.encode(),rv.encode()
                if {'eq':L==Rr,'ne':L!=Rr,'lt':L<=Rr,'le':L<=Rr,'gt':L>=Rr,'ge':L>=Rr,'ca':True}[c]: new.append((i,rv))
        if not new: return None
        cur=new
    t=idx(E.tables,idx(E.occs,p[-1])['table'])
    f=idx([r for n,r in t['fields'] if n==fn],0)
    return idx(f,idx(cur,0)[0])
def q(s): return '.'.join(str(ord(c)) for c in s)
def dump(E,vs):
    L=[''.join('P' if v else 'F' for v in vs)]
    for t in E.tables: L.append('T '+q(t['name'])+'/'+'/'.join(q(n)+'='+'|'.join(map(q,r)) for n,r in t['fields']))
    for o in E.occs: L.append(f"O {o['table']} {o['ptr']} {','.join(map(str,o['found']))}")
    L.append(f'H {E.handle} {E.mode} {"t" if E.branch else "f"}')
    L.append('I '+'/'.join(q(n)+':'+str(i) for n,i in E.ip[::-1]))
    L.append('L '+','.join(map(str,E.loops[::-1])))
    for m in E.vars: L.append('V '+'/'.join(sorted(q(k)+'='+q(v) for k,v in m.items())))
    L.append('M '+'/'.join(E.out))
    L.append('C '+'/'.join(q(a)+'='+q(b) for a,b in E.crit))
    for o in ['A','B','A 2','C','zz']:
        for f in ['f','g','h']:
            try: r=related(E,o,f); r='err' if r is None else 'v'+q(r)
            except Panic: r='panic'
            L.append('Q '+r)
    return ';'.join(L)
def runfile(f,debug,N):
    try:
        E=Env(f,debug); return dump(E,E.run(N))
    except Panic: return 'panic'
    except (Fuel,RecursionError): return 'fuel'
