import sys,random,subprocess; sys.path.insert(0,'/tmp/burnfm')
from dec import *
random.seed(int(sys.argv[1])); N=20000
ops=list(range(0,0x20))+[0x20,0x23,0x28,0x30,0x38,0x3d,0x40,0x80]
lines=[];exp=[]
for _ in range(N):
    n=random.choice([30,60,300]); buf=[random.choice([0,1,2,3,5,0x80,0xfe,0xff,random.randrange(256)]) for _ in range(n)]
    o=random.randrange(0,25)
    if random.random()<.9:
        buf[o]=random.choice(ops) | (random.choice([0,0,0,0xc0]))
    path=[random.randrange(300) for _ in range(random.randrange(4))]
    loc=random.randrange(0,o+1)
    lines.append(' '.join(map(str,[o,loc,len(path)]+path+buf)))
    p=list(path)
    sh=lambda d:'-' if d is None else '['+','.join(map(str,d))+']'
    op=lambda d:'none' if d is None else '(some %d)'%d
    try:
        o2,(ty,c,data,rd,seg,rs)=chunk(bytes(buf),o,p,loc)
        exp.append(f"{o2} {p} {ty} {c} {sh(data)} {sh(rd)} {op(seg)} {op(rs)}")
    except Panic: exp.append('panic')
open('/tmp/burnfm/in.txt','w').write('\n'.join(lines)+'\n')
out=subprocess.run(['lake','env','lean','--run','/tmp/burnfm/chunk.lean','/tmp/burnfm/in.txt'],cwd='/verif/lean',capture_output=True,text=True)
got=out.stdout.strip().split('\n')
print(len(got),len(exp),out.stderr[:300])
bad=[(l,e,g) for l,e,g in zip(lines,exp,got) if e!=g]
print(len(bad), sum(e=='panic' for e in exp))
for b in bad[:5]: print(b)
