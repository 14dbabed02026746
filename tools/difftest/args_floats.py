import argparse, random, sys, json, struct, io, zipfile, time
random.seed(int(sys.argv[1])); N=int(sys.argv[2])
class P(argparse.ArgumentParser):
    def _print_message(self,*a): pass
def mk():
    p=P(prog="x",description="VGM Extractor")
    p.add_argument("file",metavar="file",type=str,help="x")
    p.add_argument("-i","--instrument",type=str,help="x")
    p.add_argument("-t","--track",type=str,help="x")
    p.add_argument("-tn","--ticks-per-note",type=int,help="x")
    return p
frag=["-","--","-i","-t","-tn","--instrument","--track","--ticks-per-note","--t","--ti","--tr","--i","-h","--help","--h","=","a","5","-5","-5.3","-.5","-5\n"," ","x y","-x","-x y","-in","-tn5","-t=5","-tn=5","-i=","--track=","--ti=7","--in=f","-hi","-ht","-h=","-hh","-hx","-h-","-htn","-ha","","1_0","_1","1_","+3"," 4 ","\t4","\x1c4","4\n","--x","--x=3","-=","--=","-t-","-i--","0x1","--help=3","-ti","-tn-5","-t5","-n","-1a","-1.","-1.2.3","--5","- 5","-\n","-5\n\n","00","0_0","- "]
fi=open("args.in","w"); fo=open("args.exp","w")
def one(argv):
    try:
        n=mk().parse_args(argv)
        r="ok|"+"|".join("N" if v is None else "S"+str(v).encode().hex() for v in (n.file,n.instrument,n.track))+"|"+("N" if n.ticks_per_note is None else str(n.ticks_per_note))
    except SystemExit as e:
        r="exit %d"%e.code
    fi.write(" ".join("x"+a.encode().hex() for a in argv)+"\n"); fo.write(r+"\n")
for _ in range(N):
    k=random.choice([0,1,2,3,3,4,5,6,7])
    argv=[]
    for _ in range(k):
        s=random.choice(frag)
        if random.random()<.25: s+=random.choice(frag)
        argv.append(s)
    one(argv)
fi.close(); fo.close()
# floats
fi=open("fl.in","w"); fo=open("fl.exp","w")
for _ in range(N):
    b=random.choice([random.randint(1,40),random.randint(1,2000),random.randint(1,10**6),random.randint(1,10**12),random.randint(1,2**80)])*random.choice([1,1,1,-1])
    a=random.choice([random.randint(0,100),random.randint(0,10**5),random.randint(0,10**8),random.randint(0,2**70), abs(b)*random.randint(0,30)+random.choice([0,1,-1])])
    a=abs(a)
    f="{:.2}".format((a/b)%1)
    try: bpm=str(int(60/((b/44100)*4)))
    except Exception as e: bpm=type(e).__name__
    fi.write(f"{a} {b}\n"); fo.write(f"{f} {bpm} {a//b} {(a//b)%64} {a//b//64}\n")
fi.close(); fo.close()
