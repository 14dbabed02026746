import gzip,io,zlib,random
random.seed(5)
class S:
    def __init__(s,d,f): s.d=d;s.p=0;s.f=f
    def read(s,n):
        b=s.d[s.p:s.p+n]
        if s.f and not(n==0 or s.p+n<=len(s.d)): raise s.f
        s.p+=len(b); return b
    def seek(s,p):
        if s.f and p>len(s.d): raise s.f
        s.p=p
bad=0
for it in range(30000):
    n=random.choice([0,1,10,100,8191,8192,8193,20000])
    d=bytes(random.choice([0,random.randrange(256)]) for _ in range(n)) if n<200 else random.randbytes(n)
    z=gzip.compress(d,random.choice([0,1,9]))
    k=random.choice(["cut","ok","crc","len"])
    if k=="cut":
        c=random.choice([random.randrange(3,len(z)),len(z)-random.randrange(1,9)])
        z=z[:c]; fail=EOFError
        o=zlib.decompressobj(31)
        try: data=o.decompress(z)
        except zlib.error: continue
    elif k=="ok": data=d; fail=None
    else:
        i=len(z)-(8 if k=="crc" else 4); z=z[:i]+bytes([z[i]^1])+z[i+1:]; data=d; fail=gzip.BadGzipFile
    g=gzip.open(io.BytesIO(z),"rb"); m=S(data,fail)
    ops=[]
    for _ in range(8):
        if random.random()<.75: op=("read",random.choice([0,1,2,4,6,random.randrange(0,n+3),random.randrange(30000)]))
        else: op=("seek",random.choice([0,random.randrange(0,n+3),random.randrange(30000),n]))
        ops.append(op)
        def run(o):
            try: return getattr(o,op[0])(op[1]) if op[0]=="read" else (getattr(o,op[0])(op[1]),0)[1]
            except Exception as e: return type(e)
        a=run(g);b=run(m)
        if a!=b:
            bad+=1
            if bad<6: print(k,n,len(data),fail,ops,str(a)[:60],str(b)[:60])
            break
        if isinstance(a,type): break
print("bad",bad)
