class Panic(Exception): pass
def gpi(b):
    if len(b)==1: return b[0]
    if len(b)==2: return 0x80+(b[0]&(0x7f<<8))+b[1]
    return 0
def gint(b):
    if len(b)==1: return b[0]
    if len(b)==2: return (b[0]<<8)+b[1]
    if len(b)==4: return (gint(b[:2])<<16)+gint(b[2:])
    return 0
def sl(b,i,j):
    if i>j or j>len(b): raise Panic('slice')
    return b[i:j]
def at(b,i):
    if i>=len(b): raise Panic('index')
    return b[i]
def chunk(code,o,path,local):
    c=at(code,o); delayed=False
    if c&0xC0==0xC0: c&=0x3f; delayed=True
    ty='noop'; data=None; rd=None; seg=None; rs=None
    if c==0: o+=1; ty='data'; data=sl(code,o,o); at(code,1); o+=1
    elif 1<=c<=5:
        o+=1; ty='ref'; rs=at(code,o); o+=1; n=(c==1)+2*(c-1); data=sl(code,o,o+n); o+=n
    elif c==6: o+=1; ty='ref'; rs=at(code,o); o+=1; n=at(code,o); o+=1; data=sl(code,o,o+n); o+=n
    elif c==7: o+=1; ty='seg'; seg=at(code,o); o+=1; n=gint(sl(code,o,o+2)); o+=2; data=sl(code,o,o+n); o+=n
    elif c==8: o+=1; ty='data'; data=sl(code,o,o+2); o+=2
    elif 9<=c<=0xd: o+=1; ty='ref'; rs=gpi(sl(code,o,o+2))&0xffff; o+=2; n=(c==9)+2*(c-9); data=sl(code,o,o+n); o+=n
    elif c==0xe:
        if at(code,o+1)!=0xff:
            o+=1; ty='ref'; rs=gpi(sl(code,o,o+2))&0xffff; o+=2; n=at(code,o); o+=1; data=sl(code,o,o+n); o+=n
        else: o+=1; ty='data'; data=sl(code,o,o+6); o+=6
    elif c==0xf:
        if at(code,o+1)==0x80:
            ty='seg'; o+=2; seg=at(code,o); o+=1; n=gint(sl(code,o,o+2)); o+=2; data=sl(code,o,o+n); o+=n
    elif c==0x10: o+=1; ty='data'; data=sl(code,o,o+3); o+=3
    elif 0x11<=c<=0x15: o+=1; ty='data'; n=3+(c==0x11)+2*(c-0x11); data=sl(code,o,o+n); o+=n
    elif c==0x16: o+=1; ty='long'; rd=sl(code,o,o+3); o+=3; n=at(code,o); o+=1; data=sl(code,o,o+n); o+=n
    elif c==0x17: o+=1; ty='long'; rd=sl(code,o,o+3); o+=3; n=gpi(sl(code,o,o+2)); o+=2; data=sl(code,o,o+n); o+=n
    elif c==0x1b and at(code,o+1)==0: o+=2; ty='ref'; rs=at(code,o); o+=1; data=sl(code,o,o+4); o+=4
    elif c in (0x19,0x1a,0x1b,0x1c,0x1d): o+=1; ty='data'; n=at(code,o); o+=1; data=sl(code,o,o+n); o+=n+(c==0x19)+2*(c-0x19)
    elif c==0x1e:
        o+=1; ty='long'; r=at(code,o); o+=1; rd=sl(code,o,o+r); o+=r; n=at(code,o); o+=1; data=sl(code,o,o+n); o+=n
    elif c==0x1f:
        o+=1; ty='long'; r=at(code,o); o+=1; rd=sl(code,o,o+r); n=gint(sl(code,o,o+2)); o+=2; data=sl(code,o,o+n); o+=n
    elif c==0x20:
        o+=1; ty='push'
        if at(code,o)==0xfe: o+=1; data=sl(code,o,o+8)
        else: data=sl(code,o,o+1)
        i=gpi(sl(code,o,o+1)); o+=len(data); path.append(i)
    elif c==0x23: o+=1; ty='data'; n=at(code,o); o+=1; data=sl(code,o,o+n); o+=n
    elif c==0x28: o+=1; ty='push'; data=sl(code,o,o+2); path.append(gpi(data)); o+=2
    elif c==0x30: o+=1; ty='push'; data=sl(code,o,o+3); path.append(gpi(data)); o+=3
    elif c==0x38: o+=1; ty='push'; n=at(code,o); o+=1; data=sl(code,o,o+2); path.append(gpi(data)); o+=n
    elif c in (0x3d,0x40): ty='pop'; o+=1; path and path.pop()
    elif c==0x80: o+=1
    else: raise Panic('opcode %x'%c)
    if delayed and path: path.pop()
    return o,(ty,c,data,rd,seg,rs)
def events(buf):
    idx=2
    while idx!=0:
        st=idx*4096; nxt=gint(sl(buf,st+8,st+12)); o=st+20; path=[]
        while o<st+4096:
            o,ch=chunk(buf,o,path,st)
            yield list(path),ch
        idx=nxt
