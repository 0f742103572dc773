import sys,json,random,subprocess
sys.path.insert(0,'/tmp/burnfm')
from asm import *
print(len(HEADER),len(mp),[(k,len(v)) for k,v in BLOBS])
seed=int(sys.argv[1]);N=int(sys.argv[2]);R=random;R.seed(seed)
def nm(): return ''.join(R.choice('abczXYZ_ é0:1"') for _ in range(R.choice([0,1,3,8,20,60 if R.random()<.2 else 2,130 if R.random()<.1 else 1])))
def ids(n): return R.sample(list(range(1,12))+[0,128,200,255,256,300,70000,2**24-1,2**24,2**32-1,2**32,2**32-128,2**32-129,2**40],n)
def gen():
    nl=lambda:R.choice([0,1,3,255,256,300])
    return {'name':nm() if R.random()<.95 else 'n'*R.choice([1012,1013,1014,1015,2000]),'tables':[[i,nm()] for i in ids(R.choice([0,1,2,3,5,10 if R.random()<.2 else 1]))] if R.random()<.95 else [[i,'t'*20] for i in range(1,R.choice([60,70,80,200]))],
      'occs':[[i,nm()] for i in ids(R.choice([0,1,2,4]))],'nl':nl(),'ns':nl()}
fs=[gen() for _ in range(N)]; fn='/tmp/burnfm/asm_%d.txt'%seed
open(fn,'w').write('\n'.join(json.dumps(f) for f in fs)+'\n')
for prof in('debug','release'):
    o=subprocess.run(['lake','env','lean','--run','/tmp/burnfm/asm.lean',prof,fn],cwd='/verif/lean',capture_output=True,text=True)
    out=o.stdout.split('\n')[:-1]
    if len(out)!=N: print('bad',len(out),o.stderr[:800],o.stdout[-300:])
    st={};bad=0
    for f,l in zip(fs,out):
        try: b=assemble(f,prof=='debug'); r=f'{len(b)} {h(b)}'
        except Panic: r='panic'
        k='panic' if r=='panic' else 'ok'; st[k]=st.get(k,0)+1
        if r!=l:
            bad+=1
            if bad<4: print('MISMATCH',json.dumps(f)[:800],'\nPY  ',r,'\nLEAN',l)
    print(prof,st,'mismatches',bad)
