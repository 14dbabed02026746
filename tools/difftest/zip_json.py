import json,random,zipfile,io,time,zlib
random.seed(3)
fi=open("zip.in","w");fo=open("zip.exp","w")
real=time.localtime
for _ in range(120):
    t=(random.choice([1979,1980,1981,2024,2107,2108,2200]),random.randint(1,12),random.randint(1,31),random.randint(0,23),random.randint(0,59),random.randint(0,59))
    data="".join(random.choice("<>a\nåé€😀 ") for _ in range(random.randint(0,60)))
    b=io.BytesIO()
    zipfile.time.localtime=lambda x=None:t+(0,0,0)
    try:
        with zipfile.ZipFile(b,mode="w") as zf: zf.writestr("Song.xml",data)
        r="ok"
    except Exception as e: r=type(e).__name__
    fi.write(" ".join(map(str,t))+" "+data.encode().hex()+"\n"); fo.write(r+" "+b.getvalue().hex()+"\n")
fi.close();fo.close()
fi=open("js.in","w");fo=open("js.exp","w")
def gen(d):
    k=random.choice("nbsaoao" if d<4 else "nbs")
    if k=="n": v=random.choice([0,1,random.randint(0,10**9)]); return v,f"n{v} "
    if k=="b": v=random.random()<.5; return v,"t " if v else "f "
    if k=="s": v="".join(random.choice("ab_|Z9") for _ in range(random.randint(0,5))); return v,f"s{v} "
    if k=="a":
        xs=[gen(d+1) for _ in range(random.randint(0,3))]
        return [x[0] for x in xs], f"a{len(xs)} "+"".join(x[1] for x in xs)
    ks=random.sample(["a","b","cc","d_e","f"],random.randint(0,3)); xs=[gen(d+1) for _ in ks]
    return dict(zip(ks,[x[0] for x in xs])), f"o{len(xs)} "+"".join(f"s{k} "+x[1] for k,x in zip(ks,xs))
for _ in range(500):
    v,s=gen(0)
    fi.write(s+"\n");fo.write(json.dumps(v,indent="\t").encode().hex()+"\n")
fi.close();fo.close()
