import sys,json,random,subprocess
sys.path.insert(0,'/tmp/burnfm')
from vm import *
seed=int(sys.argv[1]);N=int(sys.argv[2]);R=random;R.seed(seed)
names=['x','y','z','true','i']
fields=['A::f','A::g','B::h','A 2::f','C::k','f','A::f::g']
def atom():
    r=R.random()
    if r<.3: return R.choice(['0','1','2','3','10','007','2.5','-4','.5','1e2','+3','5.','99999999999'])
    if r<.5: return R.choice(['"a"','"b"','"next"','"ab c"','""','"é"','"S1"','"1"','"A"'])
    if r<.75: return R.choice(names)
    if r<.9: return R.choice(fields)
    return R.choice(['nan','inf','1x','"','é','a:b',':','a::','::b','$v'])
def expr(d):
    if d==0 or R.random()<.3: return atom()
    r=R.random(); w=lambda:R.choice(['',' ','  ','\t','\n']) if R.random()<.5 else ' '
    if r<.7:
        return expr(d-1)+w()+R.choice(['+','-','*','/','&','==','!=','<','<=','>','>=','==','==','<','='])+w()+expr(d-1)
    if r<.82: return '('+w()+expr(d-1)+w()+')'
    return R.choice(['Abs','Acos','Asin','Char','Min','Min','Min','Get','Foo'])+w()*(R.random()<.1)+'('+(','+w()).join(expr(d-1) for _ in range(R.choice([1,1,2,3])))+')'
def good():
    r=R.random()
    if r<.3: return R.choice(names)+' '+R.choice(['+','-','*','&','==','<'])+' '+R.choice(['1','2','y','"a"'])
    if r<.5: return R.choice(['1','2','3','"a"','"b"','A::f','B::h'])
    if r<.6: return 'Min(%s, %s)'%(R.choice(names+['1','7']),R.choice(['2','x','"q"']))
    if r<.7: return '(%s + 1) * 2'%R.choice(names+['1'])
    return expr(R.choice([0,1,1,2,3]))
def mut(s):
    if R.random()<.05 and s:
        i=R.randrange(len(s)); return s[:i]+R.choice(['',' ','"','(',')','=',':','!',',','&'])+s[i+1:]
    return s
def e(): return mut(good())
def simple():
    r=R.random()
    if r<.25: return ['setVariable',[R.choice(names),e()]]
    if r<.4: return ['newRecordRequest',[]]
    if r<.55: return ['setField',[R.choice(fields[:4]) if R.random()<.95 else R.choice(fields),e()]]
    if r<.62: return ['goToRecordRequestPage',[R.choice(['"next"','"first"','"last"','"previous"','0','1','5','x',e()])]]
    if r<.68: return ['goToLayout',[R.choice(['"A"','"B"','"A2"','"zz"','"a" & "b"']) if R.random()<.97 else e()]]
    if r<.75: return ['assert',[R.choice(['1 == 1','x == x','x != y','A::f == A::f',e()])]]
    if r<.8: return ['performScript',[R.choice(['"S1"','"S2"','"S3"']) if R.random()<.97 else e()]]
    if r<.84: return ['enterFindMode',[]]
    if r<.9: return ['performFind',[]]
    if r<.93: return ['showAllRecords',[]]
    if r<.96: return ['showCustomDialog',[e()]]
    return [R.choice(['unsortRecords','other']),[]]
def cond(): return R.choice(['1 == 1','1 == 2','x == 1','i == 2','A::f == "a"',e()])
def block(d,n):
    out=[]
    for _ in range(n):
        r=R.random()
        if d and r<.18:
            out.append(['iff',[cond()]]); out+=block(d-1,R.choice([0,1,2]))
            for _ in range(R.choice([0,0,1,2])): out.append(['elseIf',[cond()]]); out+=block(d-1,R.choice([0,1,2]))
            if R.random()<.5: out.append(['els',[]]); out+=block(d-1,R.choice([0,1,2]))
            out.append(['endIf',[]])
        elif d and r<.3:
            out.append(['setVariable',['i','0']]); out.append(['loop',[]])
            out.append(['setVariable',['i','i + 1']])
            out+=block(d-1,R.choice([0,1,2]))
            if R.random()<.7: out.append(['exitLoopIf',['i == '+R.choice('123')]])
            else: out.append(['goToRecordRequestPage',['"next"','1']])
            out+=block(d-1,R.choice([0,1]))
            out.append(['endLoop',[]])
        else: out.append(simple())
    if R.random()<.06 and out: del out[R.randrange(len(out))]
    if R.random()<.04: out.append(R.choice([['endIf',[]],['els',[]],['endLoop',[]],['loop',[]],['elseIf',[cond()]],['exitLoopIf',[cond()]],['setVariable',['x']]]))
    return out
def gen():
    f={}
    pre=[['newRecordRequest',[]]] if R.random()<.8 else []
    if R.random()<.5: pre+=[['goToLayout',['"B"']],['newRecordRequest',[]],['goToLayout',['"A"']]]
    f['tables']=[[1,['A',[[1,'f'],[2,'g'],[4,'f'] if R.random()<.1 else [3,'z']]]],[2 if R.random()<.9 else 4,['B',[[1,'h']]]]]
    f['occs']=[[1,['A',1]],[2,['B',2]],[3,['A 2',1]]]
    if R.random()<.1: f['occs'].append([5,['C',R.choice([1,2,9])]])
    if R.random()<.1: f['occs']=f['occs'][1:]
    f['rels']=[[1,[1,1,2,1,'eq']]] if R.random()<.97 else [[1,[1,1,9,1,'eq']]]
    f['layouts']=[[1,['A',1]],[2,['B',2]],[3,['A2',3]],[4,['ab',R.choice([1,65538,77])]]]
    f['scripts']=[[i,['S%d'%i,block(1,R.choice([0,1,2,3]))]] for i in (1,2)]
    if R.random()<.2: f['scripts'].append([9,['S1',block(1,2)]])
    f['tests']=[['t%d'%k,['m',(pre if k==0 or R.random()<.3 else [])+block(2,R.choice([1,2,3,4,5,6]))]] for k in range(R.choice([1,1,2,3]))]
    return f
def gen2():
    f=gen(); f['tests']=[['t',['m',[['newRecordRequest',[]],['setField',['A::f',R.choice(['1','"a"'])]],['setVariable',['y','3']],['setVariable',['x',expr(R.choice([1,2,3,4]))]]]]]]
    return f
fs=[gen2() for _ in range(N)]
open('/tmp/burnfm/vm_%d.txt'%seed,'w').write('\n'.join(json.dumps(f) for f in fs)+'\n')
for prof in('debug','release'):
    o=subprocess.run(['lake','env','lean','--run','/tmp/burnfm/vm.lean',prof,'/tmp/burnfm/vm_%d.txt'%seed],cwd='/verif/lean',capture_output=True,text=True)
    out=o.stdout.split('\n')[:-1]
    if len(out)!=N: print('bad',len(out),o.stderr[:800],o.stdout[-300:])
    st={};bad=0
    for f,l in zip(fs,out):
        r=runfile(f,prof=='debug',200)
        k=r if r in('panic','fuel') else 'ok'; st[k]=st.get(k,0)+1
        if r!=l:
            bad+=1
            if bad<4: print('MISMATCH',json.dumps(f['tests'])[:1000],json.dumps(f['scripts'])[:600],'\nPY  ',r[:900],'\nLEAN',l[:900])
    print(prof,st,'mismatches',bad)
