import sys,json,random,subprocess,os
sys.path.insert(0,'/tmp/burnfm')
from burn import *
seed=int(sys.argv[1]);N=int(sys.argv[2]);R=random;R.seed(seed)
w=lambda:R.choice([' ','\n','  ','\t',' \n '])
o=lambda:R.choice(['',w()])
idn=lambda:R.choice(['a','T1','foo_bar','x','é','1x','12','2.50','table','end','my'])
gid=lambda:R.choice(['a','T1','foo_bar','x','é'])
ops=list(FS)
def arg(): return R.choice(['x','i + 1','"a, b"','min(3, 4)','"q)"','  lead','(i)','','x == 1','A::f','"] x"' if R.random()<.1 else '1'])
def step():
    return R.choice(ops+['foo','set_variable','assert'])+o()+('('+(','+o()).join(arg() for _ in range(R.choice([0,1,2,3])))+')' if R.random()<.95 else '')+o()+(';' if R.random()<.97 else '')
def body(d):
    s=''
    for _ in range(R.choice([0,1,2,3])):
        r=R.random()
        if d and r<.2: s+='loop'+w()+('{' if R.random()<.97 else '')+body(d-1)+'}'
        elif d and r<.4:
            s+='if'+o()+'('+arg()+')'+o()+'{'+body(d-1)+'}'
            for _ in range(R.choice([0,0,1,2])): s+=w()+'elif'+o()+'('+arg()+')'+o()+'{'+body(d-1)+'}'
            if R.random()<.5: s+=o()+'else'+w()+'{'+body(d-1)+'}'
        else: s+=step()
        s+=w()
    if R.random()<.03: s+=R.choice(['{','}','+','= 1','! x','<','>= 2','12',',','&','let'])
    return s
def script(): return o()+'define'+w()+gid()+o()+'('+(','+o()).join(idn() for _ in range(R.choice([0,1,2])))+')'+o()+'{'+w()+body(2)+'}'+o()
def item():
    r=R.random()
    if r<.15: return 'table '+idn()+R.choice([' ',':','\n{x + 1} ' if R.random()<.1 else ' ','= "a" ','= 3 '])+'field = Text, !unique,'*(R.random()<.3)+' end table;'
    if r<.3: return 'value_list '+idn()+o()+R.choice([':',' ',':: "x" '])+' end value_list'+o()+';'
    if r<.45: return 'relationship'+o()+':'+o()+idn()+o()+R.choice([':',': ','==','=',' '])+idn()+' x ( y ) end relationship;'
    if r<.6: return 'table_occurence '+idn()+o()+R.choice([': table : ','table: ',',',' '])+idn()+' end table_occurence;'
    if r<.8: return 'script'+o()+':'+o()+'['+''.join(script() for _ in range(R.choice([0,1,1,2])))+']'
    return 'test '+idn()+o()+':'+o()+('script:'+o()+'['+''.join(script() for _ in range(R.choice([0,1,1,1,1,1,2])))+']' if R.random()<.95 else '')+w()+'end test;'
def gen():
    r=R.random()
    s=o().join(o()+item() for _ in range(R.choice([1,1,2,3])))+o()
    for _ in range(R.choice([0,0,0,1,2])):
        if s:
            i=R.randrange(len(s)); s=s[:i]+R.choice(['',' ','"','(',')','[',']','{','}','=',':',';',',','!','end ','table ','1'])+s[i+R.choice([0,1]):]
    return s
fs=[gen() for _ in range(N)]
fn='/tmp/burnfm/burn_%d.txt'%seed
open(fn,'w').write('\n'.join(json.dumps(f) for f in fs)+'\n')
for prof in('debug','release'):
    o_=subprocess.run(['lake','env','lean','--run','/tmp/burnfm/burn.lean',prof,fn],cwd='/verif/lean',capture_output=True,text=True)
    out=o_.stdout.split('\n')[:-1]
    if len(out)!=N: print('bad',len(out),o_.stderr[:800],o_.stdout[-300:])
    st={};bad=0
    for f,l in zip(fs,out):
        r=run(f)
        k=r[:5]; st[k[:2]]=st.get(k[:2],0)+1
        if r!=l:
            bad+=1
            if bad<4: print('MISMATCH',json.dumps(f),'\nPY  ',r[:900],'\nLEAN',l[:900])
    print(prof,st,'mismatches',bad)
