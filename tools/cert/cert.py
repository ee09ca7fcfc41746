from poly import *
def S(p,q):
    (a,A,b,B),(c,C,f,Fd)=p,q  # fractions a/A,b/B
    # x = a/A, y=b/B ; q: x=c/C,y=f/Fd
    return None
n1=x1*y2+x2*y1; d1=1+d*x1*x2*y1*y2; n2=y1*y2+x1*x2; d2=1-d*x1*x2*y1*y2
if __name__=='__main__':
    G=n2**2*d1**2-n1**2*d2**2-d1**2*d2**2-d*n1**2*n2**2
    k,q=cert('closure',G)
    for z in q: print(z)
    m1=x2*y3+x3*y2; c1=1+d*x2*x3*y2*y3; m2=y2*y3+x2*x3; c2=1-d*x2*x3*y2*y3
    # (P1+P2)+P3
    xn=n1*d2*y3+x3*n2*d1; xd=d1*d2+d*n1*n2*x3*y3
    yn=n2*d1*y3+n1*d2*x3; yd=d1*d2-d*n1*n2*x3*y3
    xn_=x1*m2*c1+m1*c2*y1; xd_=c1*c2+d*m1*m2*x1*y1
    yn_=y1*m2*c1+x1*m1*c2; yd_=c1*c2-d*m1*m2*x1*y1
    for nm,G in (('assocx',xn*xd_-xn_*xd),('assocy',yn*yd_-yn_*yd)):
        k,q=cert(nm,G)
        for z in q: print(z)
