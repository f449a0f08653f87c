"""Certificates for the uniqueness of the Niggli cell (about 5 minutes): lean/Verif/Proofs/NiggliCertData.lean."""
import itertools
from fractions import Fraction as Fr
def farkas(facts):
    """facts: list of (form tuple6, kind) kind in 'ge','gt','eq'. returns list of (idx,coef) integer certificate or None"""
    cols=[];own=[]
    for i,(f,k) in enumerate(facts):
        cols.append(list(f)+[1 if k=='gt' else 0]); own.append((i,1))
        if k=='eq': cols.append([-c for c in f]+[0]); own.append((i,-1))
    m=7;n=len(cols)
    # rows: sum lam*col = b, b=(0..0,1); phase 1
    T=[[Fr(cols[j][r]) for j in range(n)]+[Fr(1) if r==c else Fr(0) for c in range(m)]+[Fr(1) if r==6 else Fr(0)] for r in range(m)]
    basis=[n+r for r in range(m)]
    # objective: minimize sum artificials ; reduced cost row
    z=[-sum(T[r][j] for r in range(m)) for j in range(n)]+[Fr(0)]*m+[-sum(T[r][-1] for r in range(m))]
    while True:
        e=next((j for j in range(n) if z[j]<0),None)
        if e is None: break
        best=None
        for r in range(m):
            if T[r][e]>0:
                q=T[r][-1]/T[r][e]
                if best is None or q<best[0] or (q==best[0] and basis[r]<basis[best[1]]): best=(q,r)
        if best is None: break
        r=best[1];p=T[r][e]
        T[r]=[x/p for x in T[r]]
        for rr in range(m):
            if rr!=r and T[rr][e]!=0:
                k=T[rr][e]; T[rr]=[a-k*b for a,b in zip(T[rr],T[r])]
        k=z[e]; z=[a-k*b for a,b in zip(z,T[r])]
        basis[r]=e
    if z[-1]!=0: return None
    lam={}
    for r in range(m):
        if basis[r]<n and T[r][-1]!=0:
            i,s=own[basis[r]]; lam[i]=lam.get(i,0)+s*T[r][-1]
    den=1
    from math import gcd
    for v in lam.values(): den=den*v.denominator//gcd(den,v.denominator)
    return sorted((i,int(v*den)) for i,v in lam.items() if v!=0)
def fm(**k):
    return tuple(k.get(c,0) for c in 'ABCxyz')
def sub(a,b): return tuple(x-y for x,y in zip(a,b))
def neg(a): return tuple(-x for x in a)
A,B,C,X,Y,Z=[tuple(1 if i==j else 0 for j in range(6)) for i in range(6)]
def lc(*ts):
    r=[0]*6
    for c,f in ts:
        for i in range(6): r[i]+=c*f[i]
    return tuple(r)
def system(g,t):
    """g: the six forms; returns facts, rules"""
    A,B,C,X,Y,Z=g
    if t==1:
        facts=[(A,'gt'),(sub(B,A),'ge'),(sub(C,B),'ge'),(X,'gt'),(Y,'gt'),(Z,'gt'),(sub(B,X),'ge'),(sub(A,Y),'ge'),(sub(A,Z),'ge')]
        rules=[(sub(B,A),sub(Y,X)),(sub(C,B),sub(Z,Y)),(sub(B,X),lc((2,Y),(-1,Z))),(sub(A,Y),lc((2,X),(-1,Z))),(sub(A,Z),lc((2,X),(-1,Y)))]
    else:
        S=lc((1,A),(1,B),(1,X),(1,Y),(1,Z))
        facts=[(A,'gt'),(sub(B,A),'ge'),(sub(C,B),'ge'),(neg(X),'ge'),(neg(Y),'ge'),(neg(Z),'ge'),(lc((1,B),(1,X)),'ge'),(lc((1,A),(1,Y)),'ge'),(lc((1,A),(1,Z)),'ge'),(S,'ge')]
        rules=[(sub(B,A),sub(X,Y)),(sub(C,B),sub(Y,Z)),(lc((1,B),(1,X)),Z),(lc((1,A),(1,Y)),Z),(lc((1,A),(1,Z)),Y),(S,lc((-2,A),(-2,Y),(-1,Z)))]
    return facts,rules
base=(A,B,C,X,Y,Z)
def q(v):
    x,y,z=v
    return (x*x,y*y,z*z,y*z,x*z,x*y)
def b2(u,v):
    return (2*u[0]*v[0],2*u[1]*v[1],2*u[2]*v[2],u[1]*v[2]+u[2]*v[1],u[0]*v[2]+u[2]*v[0],u[0]*v[1]+u[1]*v[0])
def prove(facts,rules,depth,used=()):
    c=farkas(facts)
    if c is not None: return ('L',c)
    if depth==0: return None
    # iterative: choose a rule such that one branch closes immediately, prefer
    cand=[]
    for i,(p,qf) in enumerate(rules):
        if i in used: continue
        f1=facts+[(p,'gt')]
        c1=farkas(f1)
        f2=facts+[(p,'eq'),(qf,'ge')]
        c2=farkas(f2)
        if c1 is not None and c2 is not None: return ('S',i,('L',c1),('L',c2))
        cand.append((i,c1,c2,f1,f2))
    for i,c1,c2,f1,f2 in cand:
        if c1 is not None:
            # p=0 forced: always apply
            t=prove(f2,rules,depth,used+(i,))
            if t is None: return None
            return ('S',i,('L',c1),t)
    if depth==1: return None
    for i,c1,c2,f1,f2 in cand:
        if c2 is not None:
            t=prove(f1,rules,depth-1,used+(i,))
            if t: return ('S',i,t,('L',c2))
    for i,c1,c2,f1,f2 in cand:
        if c2 is None:
            t=prove(f1,rules,depth-1,used+(i,))
            if t is None: continue
            t2=prove(f2,rules,depth-1,used+(i,))
            if t2 is None: continue
            return ('S',i,t,t2)
    return None
def iprove(facts,rules,D):
    for d in range(D+1):
        t=prove(facts,rules,d)
        if t: return t
    return None
def size(t): return 1 if t[0]=='L' else 1+size(t[2])+size(t[3])
V=[v for v in itertools.product((0,1,-1),repeat=3) if v!=(0,0,0)]
def det(u,v,w): return u[0]*(v[1]*w[2]-v[2]*w[1])-v[0]*(u[1]*w[2]-u[2]*w[1])+w[0]*(u[1]*v[2]-u[2]*v[1])
# search
out={}
for T in (1,2):
    F,R=system(base,T)
    n1=[]; c1={}
    for u in V:
        t=iprove(F+[(sub(q(u),A),'eq')],R,1)
        if t is None: n1.append(u)
        else: c1[u]=t
    c2={};c3={};c4={}
    for u1 in n1:
        for u2 in V:
            if u2==u1 or u2==neg(u1): continue
            t=iprove(F+[(sub(q(u1),A),'eq'),(sub(q(u2),B),'eq')],R,1)
            if t is not None: c2[(u1,u2)]=t; continue
            for u3 in V:
                if det(u1,u2,u3)!=1: continue
                E3=[(sub(q(u1),A),'eq'),(sub(q(u2),B),'eq'),(sub(q(u3),C),'eq')]
                t=iprove(F+E3,R,1)
                if t is not None: c3[(u1,u2,u3)]=t; continue
                g2=(q(u1),q(u2),q(u3),b2(u2,u3),b2(u1,u3),b2(u1,u2))
                for T2 in (1,2):
                    F2,R2=system(g2,T2)
                    goals=[[]] if T2!=T else [[(sub(X,g2[3]),'gt')],[(sub(Y,g2[4]),'gt')],[(sub(Z,g2[5]),'gt')]]
                    ts=[]
                    for gl in goals:
                        t=iprove(F+E3+F2[1:]+gl,R+R2,4)
                        if t is None:
                            print('FAIL',T,u1,u2,u3,T2,gl,flush=True)
                        ts.append(t)
                    c4[(u1,u2,u3,T2)]=ts
        print(T,u1,len(c3),len(c4),flush=True)
    out[T]=(c1,c2,c3,c4)
# output
o=out
def ser(t,out):
    if t[0]=='L':
        assert len(t[1])<32
        out.append(len(t[1]))
        for i,c in t[1]: out.append(i); out.append(c+32)
    else:
        out.append(32+t[1]); ser(t[2],out); ser(t[3],out)
def stream(T,u1):
    c1,c2,c3,c4=o[T]; out=[]
    if u1 in c1: out.append(1); ser(c1[u1],out); return out
    out.append(0)
    for u2 in V:
        if u2==u1 or u2==neg(u1): continue
        if (u1,u2) in c2: out.append(1); ser(c2[(u1,u2)],out); continue
        out.append(0)
        for u3 in V:
            if det(u1,u2,u3)!=1: continue
            if (u1,u2,u3) in c3: out.append(1); ser(c3[(u1,u2,u3)],out); continue
            out.append(0)
            for T2 in (1,2):
                for t in c4[(u1,u2,u3,T2)]: ser(t,out)
    return out
res={}
for T in (1,2):
    for i,u in enumerate(V):
        s=stream(T,u); n=0
        for d in reversed(s): assert 0<=d<64; n=n*64+d
        res[T,i]=n
L=['import Verif.Proofs.NiggliCert','','set_option autoImplicit false','','/-! # Certificates for the uniqueness of the Niggli cell','','Written by `gen_niggli.py`; `certs t` lists one number for each vector of `smallVecs`. -/','','namespace CrystSymm.NiggliCert','']
for T,nm in ((1,'certsI'),(2,'certsII')):
    L.append('def %s : List ℕ := ['%nm)
    L.append(',\n'.join('  0x%x'%res[T,i] for i in range(26))+']')
    L.append('')
L.append('''def certs : Bool → List ℕ
  | true => certsI
  | false => certsII

def checkAll (t : Bool) : Bool := (smallVecs.zip (certs t)).all fun p => (check1 t p.1 p.2).isSome

set_option maxRecDepth 100000 in
theorem checkAll_true : checkAll true = true := by decide +kernel

set_option maxRecDepth 100000 in
theorem checkAll_false : checkAll false = true := by decide +kernel

end CrystSymm.NiggliCert
''')
open('lean/Verif/Proofs/NiggliCertData.lean','w').write('\n'.join(L))
