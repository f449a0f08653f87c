"""Certificates that the lattice symmetries of a Niggli cell are those of its character (lean/Verif/Proofs/BravaisCertData.lean)."""
import itertools, sys
src = open('gen_niggli.py').read()
exec(src[:src.index('V=[v for v')])
V=[v for v in itertools.product((0,1,-1),repeat=3) if v!=(0,0,0)]
def det(u,v,w): return u[0]*(v[1]*w[2]-v[2]*w[1])-v[0]*(u[1]*w[2]-u[2]*w[1])+w[0]*(u[1]*v[2]-u[2]*v[1])
S=lc((1,A),(1,B),(1,X),(1,Y),(1,Z))
def f(*ts): return lc(*ts)
XA=sub(X,A);YA=sub(Y,A);ZA=sub(Z,A);YX=sub(Y,X);ZX=sub(Z,X);ZY=sub(Z,Y)
pA=lambda v:lc((1,v),(1,A)); pB=lambda v:lc((1,v),(1,B)); t3=lambda v:lc((3,v),(2,A))
entries={
 (1,1):[([XA,YA,ZA],1),([YX,ZX],2)],
 (1,2):[([X,Y,Z],3),([t3(X),t3(Y),t3(Z)],5),([YX,ZX],4),([S,YX],6),([S,ZY],7),([S],8)],
 (2,1):[([XA,YA,ZA],9),([YX],10)],
 (2,2):[([X,Y,Z],11),([X,Y,pA(Z)],12),([X,Y],13),([pA(X),pA(Y),Z],15),([S,YX],16),([YX],14),([S],17)],
 (3,1):[([lc((2,X),(-1,A)),YA,ZA],18),([YA,ZA],19),([ZY],20)],
 (3,2):[([X,Y,Z],21),([pB(X),Y,Z],22),([Y,Z],23),([S,t3(Y),t3(Z)],24),([ZY],25)],
 (4,1):[([lc((2,X),(-1,A)),YA,ZA],26),([YA,ZA],27),([YA,lc((1,Z),(-2,X))],28),([lc((1,Y),(-2,X)),ZA],29),([sub(X,B),lc((1,Z),(-2,Y))],30),([],31)],
 (4,2):[([X,Y,Z],32),([pB(X),Y,Z],40),([Y,Z],35),([X,pA(Y),Z],36),([X,Z],33),([X,Y,pA(Z)],38),([X,Y],34),([pB(X),pA(Y),Z],42),([pB(X),Z],41),([pA(Y),Z],37),([Y,pA(Z)],39),([S,lc((2,X),(1,Z),(2,B))],43),([],44)],
}
setf={1:[(sub(B,A),'eq'),(sub(C,B),'eq')],2:[(sub(B,A),'eq'),(sub(C,B),'gt')],3:[(sub(B,A),'gt'),(sub(C,B),'eq')],4:[(sub(B,A),'gt'),(sub(C,B),'gt')]}
def cprove(facts,rules,clauses,depth,used=(),usedc=()):
    t=prove(facts,rules,min(depth,1),used)
    if t: return t
    if depth==0: return None
    # forced rules are handled inside prove only at its own level; try clauses
    best=[]
    for j,cl in enumerate(clauses):
        if j in usedc: continue
        br=[]
        for fm_ in cl:
            for g in (fm_,neg(fm_)):
                fs=facts+[(g,'gt')]
                br.append((fs,farkas(fs)))
        nopen=sum(1 for _,c in br if c is None)
        best.append((nopen,j,br))
    best.sort(key=lambda x:(x[0],x[1]))
    for nopen,j,br in best:
        if nopen==0: return ('C',j,[('L',c) for _,c in br])
    for nopen,j,br in best:
        ts=[]
        for fs,c in br:
            if c is not None: ts.append(('L',c)); continue
            t=cprove(fs,rules,clauses,depth-1,used,usedc+(j,))
            if t is None: ts=None;break
            ts.append(t)
        if ts is not None: return ('C',j,ts)
    # rule splits with clauses below
    for i,(p,qf) in enumerate(rules):
        if i in used: continue
        t1=cprove(facts+[(p,'gt')],rules,clauses,depth-1,used+(i,),usedc)
        if t1 is None: continue
        t2=cprove(facts+[(p,'eq'),(qf,'ge')],rules,clauses,depth-1,used+(i,),usedc)
        if t2 is None: continue
        return ('S',i,t1,t2)
    return None
def icprove(facts,rules,clauses,D):
    for d in range(D+1):
        t=cprove(facts,rules,clauses,d)
        if t: return t
    return None
def ser(t,out):
    if t[0]=='L':
        assert len(t[1])<32
        out.append(len(t[1]))
        for i,c in t[1]:
            assert -32<=c<32 and i<64,(i,c)
            out.append(i); out.append(c+32)
    elif t[0]=='S':
        out.append(32+t[1]); ser(t[2],out); ser(t[3],out)
    else:
        out.append(48+t[1])
        for x in t[2]: ser(x,out)
import re
D='lean/Verif/'
def ints(s): return [int(x) for x in re.findall(r'-?\d+',s)]
conv={}
txt=open(D+'Data/Core.lean').read()
blk=txt[txt.index('def latticeCharToConvTrans'):txt.index('def centeringToPrimTrans')]
for m in re.finditer(r'\((\d+), ⟨([^⟩]*)⟩\)',blk): conv[int(m.group(1))]=ints(m.group(2))
prim={}
blk=txt[txt.index('def centeringToPrimTrans'):]
for m in re.finditer(r'\(\.(\w), ⟨([^⟩]*)⟩, (-?\d+)\)',blk): prim[m.group(1)]=(ints(m.group(2)),int(m.group(3)))
pg={}
for l in open(D+'Proofs/PointGroupOps.lean'):
    m=re.match(r'\s*\((\d+), \[([^\]]*)\], \[([^\]]*)\]\)',l)
    if m: pg[int(m.group(1))]=ints(m.group(3))
holo={'aP':2,'mP':11,'mC':11,'mI':11,'oP':32,'oC':32,'oI':32,'oF':32,'tP':19,'tI':19,'hR':4,'hP':25,'cP':30,'cI':30,'cF':30}
def dec(c):
    d=[]
    for w in (6561,2187,729,243,81,27,9,3,1): d.append(c//w%3-1)
    return [d[0:3],d[3:6],d[6:9]]
def mat(l): return [l[0:3],l[3:6],l[6:9]]
def mmul(a,b): return [[sum(a[i][k]*b[k][j] for k in range(3)) for j in range(3)] for i in range(3)]
def tr(a): return [[a[j][i] for j in range(3)] for i in range(3)]
br={}
for m in re.finditer(r'\((\d+), \.(\w\w)\)',txt[txt.index('def latticeCharToBravais'):txt.index('def latticeCharToConvTrans')]): br[int(m.group(1))]=m.group(2)
def stream(cs,T,i):
    F,R=system(base,T)
    E,n=entries[cs,T][i]
    clauses=[e for e,_ in entries[cs,T][:i]]
    F=F+setf[cs]+[(e,'eq') for e in E]
    out=[];left=[]
    for u in V:
        F1=F+[(sub(q(u),A),'eq')]
        t=icprove(F1,R,clauses,1)
        if t: out.append(1); ser(t,out); continue
        out.append(0)
        for v in V:
            if v==u or v==neg(u): continue
            F2=F1+[(sub(q(v),B),'eq'),(sub(b2(u,v),Z),'eq')]
            t=icprove(F2,R,clauses,1)
            if t: out.append(1); ser(t,out); continue
            out.append(0)
            for w in V:
                if det(u,v,w)!=1: continue
                F3=F2+[(sub(q(w),C),'eq'),(sub(b2(v,w),X),'eq'),(sub(b2(u,w),Y),'eq')]
                if member(n,u,v,w): out.append(0); left.append((u,v,w)); continue
                t=icprove(F3,R,clauses,3)
                if not t: print('FAIL',cs,T,n,u,v,w); raise SystemExit
                out.append(1); ser(t,out)
    return out,left
def member(n,u,v,w):
    U=tr([list(u),list(v),list(w)]); Tm=tr(mat(conv[n]))
    UT=mmul(U,Tm)
    return any(mmul(Tm,dec(c))==UT for c in pg[holo[br[n]]])
res={}
for (cs,T) in sorted(entries):
    for i,(E,n) in enumerate(entries[cs,T]):
        s,left=stream(cs,T,i)
        print(cs,T,n,len(s),len(left),flush=True)
        num=0
        for d in reversed(s): assert 0<=d<64; num=num*64+d
        res[cs,T,i]=num
L=['import Verif.Proofs.BravaisCert','','set_option autoImplicit false','','/-! # Certificates for the symmetries of the Niggli cells','','Written by `gen_bravais.py`; one number for each line of `charEntries`. -/','','namespace CrystSymm.NiggliCert','']
for (cs,T) in sorted(entries):
    L.append('def symmCerts%d%s : List ℕ := ['%(cs,'I'*T))
    L.append(',\n'.join('  0x%x'%res[cs,T,i] for i in range(len(entries[cs,T])))+']')
    L.append('')
L.append('def symmCerts : ℕ → Bool → List ℕ')
for cs in (1,2,3,4):
    for T in (1,2): L.append('  | %s, %s => symmCerts%d%s'%(cs if cs<4 else '_','true' if T==1 else 'false',cs,'I'*T))
L.append('')
L.append('def symmCheck (cs : ℕ) (t : Bool) : Bool :=\n  (List.range (charEntries cs t).length).all fun i => (symmEntry cs t i ((symmCerts cs t)[i]?.getD 0)).isSome\n')
for cs in (1,2,3,4):
    for T in (1,2):
        L.append('set_option maxRecDepth 100000 in\ntheorem symmCheck%d%s : symmCheck %d %s = true := by decide +kernel\n'%(cs,'I'*T,cs,'true' if T==1 else 'false'))
L.append('end CrystSymm.NiggliCert\n')
open('lean/Verif/Proofs/BravaisCertData.lean','w').write('\n'.join(L))
