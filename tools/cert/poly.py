# Laurent polynomials: vars d,x1,y1,x2,y2,x3,y3
from collections import defaultdict
V=['d','x1','y1','x2','y2','x3','y3']; N=len(V)
class Pl:
    def __init__(s,c=None): s.c={k:v for k,v in (c or {}).items() if v}
    def __add__(s,o):
        o=lift(o); r=defaultdict(int,s.c)
        for k,v in o.c.items(): r[k]+=v
        return Pl(r)
    __radd__=__add__
    def __neg__(s): return Pl({k:-v for k,v in s.c.items()})
    def __sub__(s,o): return s+(-lift(o))
    def __rsub__(s,o): return lift(o)-s
    def __mul__(s,o):
        o=lift(o); r=defaultdict(int)
        for k,v in s.c.items():
            for l,w in o.c.items():
                r[tuple(a+b for a,b in zip(k,l))]+=v*w
        return Pl(r)
    __rmul__=__mul__
    def __pow__(s,n):
        r=lift(1)
        for _ in range(n): r=r*s
        return r
    def __str__(s):
        if not s.c: return '0'
        t=[]
        for k,v in sorted(s.c.items(),reverse=True):
            m='*'.join(V[i] if e==1 else f'{V[i]}^{e}' for i,e in enumerate(k) if e)
            if not m: t.append(str(v))
            elif v==1: t.append(m)
            elif v==-1: t.append('-'+m)
            else: t.append(f'{v}*{m}')
        r=t[0]
        for u in t[1:]: r+= ' - '+u[1:] if u[0]=='-' else ' + '+u
        return r
def lift(x): return x if isinstance(x,Pl) else Pl({(0,)*N:x})
def var(n): k=[0]*N; k[V.index(n)]=1; return Pl({tuple(k):1})
d,x1,y1,x2,y2,x3,y3=map(var,V)
e=[y1**2-x1**2-1-d*x1**2*y1**2, y2**2-x2**2-1-d*x2**2*y2**2, y3**2-x3**2-1-d*x3**2*y3**2]
def reduce(G):
    q=[Pl(),Pl(),Pl()]
    while True:
        best=None
        for k in G.c:
            for i in range(3):
                if k[1+2*i]>=2 and k[2+2*i]>=2:
                    if best is None or sum(k[1:])>sum(best[0][1:]): best=(k,i)
        if best is None: return G,q
        k,i=best
        m=list(k); m[0]-=1; m[1+2*i]-=2; m[2+2*i]-=2
        t=Pl({tuple(m):-G.c[k]})
        q[i]=q[i]+t; G=G-t*e[i]
def cert(name,G):
    R,q=reduce(G)
    md=min([k[0] for z in q for k in z.c]+[0])
    q=[z*Pl({(-md,)+(0,)*(N-1):1}) for z in q]
    print(name,'terms',len(G.c),'rem',len(R.c),'d^',-md,[len(z.c) for z in q])
    return -md,q
