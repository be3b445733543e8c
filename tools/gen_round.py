from fractions import Fraction as Fr
import math
facts={}   # arg -> (result, n, e)
def rnd(x):
    x=Fr(x)
    if x==0: return Fr(0)
    a=abs(x)
    # find e with 2^52 <= a/2^e < 2^53
    e=a.numerator.bit_length()-a.denominator.bit_length()-53
    while a/Fr(2)**e>=2**53: e+=1
    while a/Fr(2)**e<2**52: e-=1
    q=a/Fr(2)**e; n=int(q); f=q-n
    assert f!=Fr(1,2),("tie",x)
    if f>Fr(1,2): n+=1
    if x<0: n=-n
    r=n*Fr(2)**e
    facts[x]=(r,n,e)
    return r
class Mat(list): pass
def mul(A,B): return [[rnd(rnd(rnd(A[i][0]*B[0][j])+rnd(A[i][1]*B[1][j]))+rnd(A[i][2]*B[2][j])) for j in range(3)] for i in range(3)]
def add(A,B): return [[rnd(A[i][j]+B[i][j]) for j in range(3)] for i in range(3)]
def sub(A,B): return [[rnd(A[i][j]-B[i][j]) for j in range(3)] for i in range(3)]
def smul(c,A): return [[rnd(c*A[i][j]) for j in range(3)] for i in range(3)]
I=[[Fr(int(i==j)) for j in range(3)] for i in range(3)]
def skew(v): return [[Fr(0),-v[2],v[1]],[v[2],Fr(0),-v[0]],[-v[1],v[0],Fr(0)]]
def tr(A): return [list(r) for r in zip(*A)]
# high precision sin cos via fractions
def sinq(x): return x-x**3/6+x**5/120
def cosq(x): return 1-x**2/2+x**4/24
def rsqrt(x):
    r=Fr(math.isqrt(x.numerator),math.isqrt(x.denominator)); assert r*r==x; return r
theta=Fr(51,2**23); dt=Fr(1,2**7); al=Fr(39,4)
trig={}
def SIN(x): r=rnd(sinq(x)); trig[('sin',x)]=facts.pop(sinq(x)); return r
def COS(x): r=rnd(cosq(x)); trig[('cos',x)]=facts.pop(cosq(x)); return r
def norm(w): return rnd(rsqrt(rnd(rnd(rnd(w[0]*w[0])+rnd(w[1]*w[1]))+rnd(w[2]*w[2]))))
stages=[]
def st(name,lhs,val): stages.append((name,lhs,val)); return val
def rod(w,th):
    A=skew(w); s=rnd(SIN(th)/th); c=rnd(rnd(1-COS(th))/rnd(th*th))
    return add(add(I,smul(s,A)),mul(smul(c,A),A)),s,c

out=[]
def q(x):
    x=Fr(x)
    y=abs(x)
    t=str(y.numerator) if y.denominator==1 else f"{y.numerator}/{y.denominator}"
    return f"-({t})" if x<0 else t
def fixn(n,e): return (2*n,e-1) if abs(n)==2**52 else (n,e)
def bk(M):
    p,qq,r=M[0][0],M[1][0],M[2][2]
    assert M==[[p,-qq,0],[qq,p,0],[0,0,r]],M
    return f"(bk ({q(p)}) ({q(qq)}) ({q(r)}))"
names={}
def fact(x):
    """emit fact for R.rn x"""
    x=Fr(x)
    if x==0: return
    if x in names: return
    r,n,e=facts[x]
    n,e=fixn(n,e)
    nm=f"f{len(names)}"; names[x]=nm
    if r==x:
        # exact: odd mantissa
        m=abs(x.numerator); k=0; ee=-(x.denominator.bit_length()-1)
        m=x.numerator
        while m%2==0: m//=2; ee+=1
        out.append(f"theorem {nm} (R : Round) : R.rn ({q(x)}) = {q(x)} :=\n  rn_of_F R ⟨{m}, {ee}, by norm_num, by norm_num, by norm_num⟩")
    else:
        out.append(f"theorem {nm} (R : Round) : R.rn ({q(x)}) = {q(r)} := by\n  have h := rn_eq R (x := {q(x)}) (n := {n}) (e := {e}) (by norm_num) (by norm_num) (by norm_num) (by rw [abs_lt]; norm_num)\n  rw [h]; norm_num")
use=[]
_r=rnd
def rnd(x):
    r=_r(x)
    if Fr(x)!=0: fact(x); use.append(names[Fr(x)])
    return r
def flush():
    u=list(dict.fromkeys(use)); use.clear(); return ", ".join(u)
def stage(nm,op,A,B,val):
    u=flush()
    if op=='mulM': u=', '.join(f"{z} F.toRound" for z in u.split(', ') if z)
    t=f"(by norm_num [rn0{' F.toRound' if op=='mulM' else ''}{', '+u if u else ''}])"
    k={'mulM':5,'addM':4,'subM':4,'smulM':4}[op]
    out.append(f"theorem {nm} {'(F : Fpu)' if op=='mulM' else '(R : Round)'} : {op} {'F' if op=='mulM' else 'R'} {A} {B} = {bk(val)} :=\n  {op}_bk {'F' if op=='mulM' else 'R'} "+" ".join([t]*k))
cnt=0
def S(op,A,B):
    global cnt
    f={'mulM':mul,'addM':add,'subM':sub,'smulM':smul}[op]
    use.clear()
    v=f(A,B)
    nm=f"st{cnt}"; cnt+=1
    a=f"({q(A)})" if op=='smulM' else bk(A)
    stage(nm,op,a,bk(B),v)
    return v
def SC(desc,lhs,val):
    """scalar stage; lhs in Lean using R.rn"""
    global cnt
    u=flush()
    out.append(f"theorem sc_{desc} (R : Round) : {lhs} = {q(val)} := by\n  norm_num [rn0, {u}]")
def TR(fn,x):
    r=(SIN if fn=='sin' else COS)(x)
    rr,n,e=trig[(fn,x)]
    n,e=fixn(n,e)
    nm={('sin',1):'sin1',('cos',1):'cos1',('sin',2):'sin2',('cos',2):'cos2'}[(fn,int(x/(theta*dt)))]
    if (fn,x) not in done:
        done.add((fn,x))
        b="sin_bound" if fn=='sin' else "cos_bound"
        out.append(f"theorem {nm} (R : Round) : R.rn (Real.{fn} ({q(x)})) = {q(rr)} := by\n  have h := rn_eq R (x := Real.{fn} ({q(x)})) (n := {n}) (e := {e}) (by norm_num) (by norm_num) (by norm_num) (by\n    have h := abs_le.mp (Real.{b} (x := {q(x)}) (by rw [abs_le]; norm_num))\n    rw [abs_lt]; norm_num [abs_of_pos] at h ⊢; constructor <;> linarith)\n  rw [h]; norm_num")
    return r
done=set()
w=[Fr(0),Fr(0),theta]; a=[Fr(0),Fr(0),al]; X=theta*dt
# trig
use.clear()
sn=TR('sin',X); cs=TR('cos',X); s2=TR('sin',2*X); c2=TR('cos',2*X); use.clear(); out[:]=[o for o in out if not o.startswith("theorem f")]; names.clear()
facts_backup=None
# names
assert rnd(dt*theta)==X
SC('phi',f"R.rn ({q(dt)} * ({q(theta)}))",X)
rnd(theta*theta); SC('nsq',f"R.rn ({q(theta)} * ({q(theta)}))",theta*theta)
rnd(X*X); SC('xsq',f"R.rn ({q(X)} * ({q(X)}))",X*X)
s=rnd(sn/X); SC('s',f"R.rn ({q(sn)} / ({q(X)}))",s)
m=rnd(1-cs); c=rnd(m/rnd(X*X)); SC('c',f"R.rn (R.rn (1 - ({q(cs)})) / R.rn ({q(X)} * ({q(X)})))",c)
A=skew([0,0,X]); 
def rod2(A):
    sA=S('smulM',s,A); T=S('addM',I,sA); cA=S('smulM',c,A); cAA=S('mulM',cA,A); return S('addM',T,cAA)
G0=rod2(A); G0t=tr(G0)
B=skew([0,0,-X])
A1=S('mulM',I,B); h=Fr(1); rnd(h); SC('one',"R.rn (1 / 1)",1); t1=S('smulM',h,A1); S1=S('addM',I,t1)
A2=S('mulM',A1,B); h=rnd(Fr(1,2)); SC('half',"R.rn (1 / 2)",h); t2=S('smulM',h,A2); S2=S('addM',S1,t2)
A3=S('mulM',A2,B); h6=rnd(Fr(1,6)); SC('sixth',"R.rn (1 / 6)",h6); t3=S('smulM',h6,A3); S3=S('addM',S2,t3)
Rm=rod2(B); D=S('subM',Rm,S3); assert all(v==0 for r in D for v in r)
Z=D
I6=S('smulM',h6,I); G3=S('addM',I6,Z)
wx=skew(w); ax=skew(a); wx2=S('mulM',wx,wx)
dt2=rnd(dt*dt); SC('dt2',f"R.rn ({q(dt)} * ({q(dt)}))",dt2); dt3=rnd(dt2*dt); SC('dt3',f"R.rn ({q(dt2)} * ({q(dt)}))",dt3)
t=[None,theta]
for i in range(2,8):
    t.append(rnd(t[-1]*theta)); SC(f't{i}',f"R.rn ({q(t[-2])} * ({q(theta)}))",t[-1])
rnd(theta*dt); SC('x',f"R.rn ({q(theta)} * ({q(dt)}))",X)
x=X
rnd(2*x); SC('2x',f"R.rn (2 * ({q(x)}))",2*x)
x2=rnd(x*x); use.clear(); x3=rnd(x2*x); SC('x3',f"R.rn ({q(x2)} * ({q(x)}))",x3)
xc=rnd(x*cs); SC('xc',f"R.rn ({q(x)} * ({q(cs)}))",xc)
xs=rnd(x*sn); SC('xs',f"R.rn ({q(x)} * ({q(sn)}))",xs)
k1=rnd(rnd(rnd(xs+rnd(2*cs))-2)/t[4]); SC('k1',f"R.rn (R.rn (R.rn ({q(xs)} + R.rn (2 * ({q(cs)}))) - 2) / ({q(t[4])}))",k1)
k2=rnd(rnd(rnd(rnd(6*x)-rnd(8*sn))+s2)/rnd(8*t[5])); SC('k2',f"R.rn (R.rn (R.rn (R.rn (6 * ({q(x)})) - R.rn (8 * ({q(sn)}))) + ({q(s2)})) / R.rn (8 * ({q(t[5])})))",k2)
k3=rnd(rnd(rnd(rnd(rnd(rnd(2*x2)+rnd(8*xs))+rnd(16*cs))+c2)-17)/rnd(8*t[6])); SC('k3',f"R.rn (R.rn (R.rn (R.rn (R.rn (R.rn (2 * ({q(x2)})) + R.rn (8 * ({q(xs)}))) + R.rn (16 * ({q(cs)}))) + ({q(c2)})) - 17) / R.rn (8 * ({q(t[6])})))",k3)
k4=rnd(rnd(rnd(rnd(x3+rnd(6*x))-rnd(12*sn))+rnd(6*xc))/rnd(6*t[5])); SC('k4',f"R.rn (R.rn (R.rn (R.rn ({q(x3)} + R.rn (6 * ({q(x)}))) - R.rn (12 * ({q(sn)}))) + R.rn (6 * ({q(xc)}))) / R.rn (6 * ({q(t[5])})))",k4)
k5=rnd(rnd(rnd(rnd(rnd(6*x2)+rnd(16*cs))-c2)-15)/rnd(8*t[6])); SC('k5',f"R.rn (R.rn (R.rn (R.rn (R.rn (6 * ({q(x2)})) + R.rn (16 * ({q(cs)}))) - ({q(c2)})) - 15) / R.rn (8 * ({q(t[6])})))",k5)
k6=rnd(rnd(rnd(rnd(rnd(rnd(4*x3)+rnd(6*x))-rnd(24*sn))-rnd(3*s2))+rnd(24*xc))/rnd(24*t[7])); SC('k6',f"R.rn (R.rn (R.rn (R.rn (R.rn (R.rn (4 * ({q(x3)})) + R.rn (6 * ({q(x)}))) - R.rn (24 * ({q(sn)}))) - R.rn (3 * ({q(s2)}))) + R.rn (24 * ({q(xc)}))) / R.rn (24 * ({q(t[7])})))",k6)
print([float(v) for v in (k1,k2,k3,k4,k5,k6)])
M0a=S('mulM',ax,G3); M0=S('smulM',dt3,M0a)
def T(k,X,*Ys):
    u=S('smulM',k,X)
    for Y in Ys: u=S('mulM',u,Y)
    return u
M1=S('subM',M0,T(k1,wx,ax))
M2=S('subM',M1,T(k2,wx,ax,wx))
M3=S('subM',M2,T(k3,wx,ax,wx2))
M4=S('addM',M3,T(k4,wx2,ax))
M5=S('subM',M4,T(k5,wx2,ax,wx))
M6=S('addM',M5,T(k6,wx2,ax,wx2))
P=S('mulM',G0t,M6)
print(float(P[0][0]),q(P[0][0]),cnt,len(names))
hdr='''import Verif.Lemmas.Double
import Verif.Model.Rounded
import Mathlib.Tactic.FinCases

/-!
# `Phi35L` in binary64 arithmetic for one motion: every rounding, one by one

Generated by tools/gen_round.py: the numbers are those of the computation, each rounding is proved.
-/
namespace Drift
namespace F64
namespace Wit
open Matrix

'''
pre='''/-- a matrix that commutes with rotations about the vertical axis -/
def bk (p q r : ℝ) : M3 := !![p, -q, 0; q, p, 0; 0, 0, r]

theorem rn0 (R : Round) : R.rn 0 = 0 := rn_of_F R IsF.zero

theorem rnrn (R : Round) (x : ℝ) : R.rn (R.rn x) = R.rn x := rn_of_F R (R.isF x)

theorem mulM_bk (F : Fpu) {p q r p' q' r' P Q S : ℝ} (h1 : F.rn (F.rn (p * p') + F.rn (-(q * q'))) = P)
    (h2 : F.rn (F.rn (-(p * q')) + F.rn (-(q * p'))) = -Q) (h3 : F.rn (F.rn (q * p') + F.rn (p * q')) = Q)
    (h4 : F.rn (F.rn (-(q * q')) + F.rn (p * p')) = P) (h5 : F.rn (r * r') = S) : mulM F (bk p q r) (bk p' q' r') = bk P Q S := by
  have e1 : F.rn P = P := by rw [← h1, rnrn F.toRound]
  have e2 : F.rn (-Q) = -Q := by rw [← h2, rnrn F.toRound]
  have e3 : F.rn Q = Q := by rw [← h3, rnrn F.toRound]
  have e5 : F.rn S = S := by rw [← h5, rnrn F.toRound]
  ext i j; fin_cases i <;> fin_cases j <;> simp [mulM, sum3, bk, rn0 F.toRound, rnrn F.toRound, *]

theorem addM_bk (R : Round) {p q r p' q' r' P Q S : ℝ} (h1 : R.rn (p + p') = P) (h2 : R.rn (-q + -q') = -Q) (h3 : R.rn (q + q') = Q)
    (h4 : R.rn (r + r') = S) : addM R (bk p q r) (bk p' q' r') = bk P Q S := by
  ext i j; fin_cases i <;> fin_cases j <;> simp [addM, bk, rn0, -neg_add_rev, *]

theorem subM_bk (R : Round) {p q r p' q' r' P Q S : ℝ} (h1 : R.rn (p - p') = P) (h2 : R.rn (-q - -q') = -Q) (h3 : R.rn (q - q') = Q)
    (h4 : R.rn (r - r') = S) : subM R (bk p q r) (bk p' q' r') = bk P Q S := by
  rw [sub_neg_eq_add] at h2
  ext i j; fin_cases i <;> fin_cases j <;> simp [subM, bk, rn0, *]

theorem smulM_bk (R : Round) {c p q r P Q S : ℝ} (h1 : R.rn (c * p) = P) (h2 : R.rn (-(c * q)) = -Q) (h3 : R.rn (c * q) = Q)
    (h4 : R.rn (c * r) = S) : smulM R c (bk p q r) = bk P Q S := by
  ext i j; fin_cases i <;> fin_cases j <;> simp [smulM, bk, rn0, *]

'''
open('lean/Verif/Lemmas/RoundWit.lean','w').write(hdr+pre+"\n".join(out)+"\n\nend Wit\nend F64\nend Drift\n")
