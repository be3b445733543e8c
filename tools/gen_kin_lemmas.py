legs={'FR':'FrontRight','FL':'FrontLeft','HR':'HindRight','HL':'HindLeft'}
forms={'Jp':('jacF (Leg.left .{l}) (q (Leg.joint .{l} 0)) (q (Leg.joint .{l} 1)) (q (Leg.joint .{l} 2))','jacF'),
'Jwb':('wbF (q (Leg.joint .{l} 1)) (q (Leg.joint .{l} 2))','wbF'),
'Jws':('wsF (q (Leg.joint .{l} 0))','wsF'),
'Jvb':('vbF (Leg.left .{l}) (q (Leg.joint .{l} 1)) (q (Leg.joint .{l} 2))','vbF'),
'Jvs':('vsF (Leg.fore .{l}) (Leg.left .{l}) (q (Leg.joint .{l} 0)) (q (Leg.joint .{l} 1))','vsF')}
o='''import Verif.Lemmas.Kin1

/-!
# Closed forms of the generated Jacobians
-/
namespace Drift
open Matrix Real

'''
for fn,(frm,nm) in forms.items():
    for l,L in legs.items():
        o+=f'''theorem {fn}_{l} (q : Fin 12 → ℝ) : Cols .{l} (Cheetah.{fn}_{L} q) ({frm.format(l=l)}) := by
  intro i j
  fin_cases i <;> fin_cases j <;>
  simp [{nm}, Cheetah.{fn}_{L}, Leg.joint, Leg.idx, Leg.left, Leg.fore, cos_add, sin_add] <;> ring

'''
    frm2=frm.replace('Leg.left .{l}','l.left').replace('Leg.fore .{l}','l.fore').replace('Leg.joint .{l}','l.joint').replace('(l.left)','l.left').replace('(l.fore)','l.fore')
    o+=f'''theorem {fn}_cols (l : Leg) (q : Fin 12 → ℝ) : Cols l (Cheetah.{fn} l q) ({frm2}) := by
  cases l
  · exact {fn}_FR q
  · exact {fn}_FL q
  · exact {fn}_HR q
  · exact {fn}_HL q

'''
o+="end Drift\n"
open('/verif/lean/Verif/Lemmas/Kin2.lean','w').write(o)
t=open('/verif/lean/Verif/Lemmas/Kin2.lean').read()
for n,(l,L) in enumerate(legs.items()):
    b=f'(q {3*n+1})'; c=f'(q {3*n+2})'
    E=f'(0.209 * cos {b} + 0.2075 * (cos {b} * cos {c} - sin {b} * sin {c}))'
    old=f"simp [vbF, Cheetah.Jvb_{L}, Leg.joint, Leg.idx, Leg.left, Leg.fore, cos_add, sin_add] <;> ring\n"
    assert old in t
    t=t.replace(old,f'''simp [vbF, Cheetah.Jvb_{L}, Leg.joint, Leg.idx, Leg.left, Leg.fore, cos_add, sin_add,
    -mul_eq_mul_left_iff, -mul_eq_mul_right_iff] <;>
  first
  | ring1
  | linear_combination (0.2075 : ℝ) * sin_sq_add_cos_sq {c}
  | linear_combination {E} * (sin {b} ^ 2 + cos {b} ^ 2) * sin_sq_add_cos_sq {c}
      + {E} * sin_sq_add_cos_sq {b}
  | linear_combination (0.062 : ℝ) * (cos {b} * cos {c} - sin {b} * sin {c}) * sin_sq_add_cos_sq (q {3*n})
  | linear_combination (-0.062 : ℝ) * (cos {b} * cos {c} - sin {b} * sin {c}) * sin_sq_add_cos_sq (q {3*n})
''')
open('/verif/lean/Verif/Lemmas/Kin2.lean','w').write(t)
t=open('/verif/lean/Verif/Lemmas/Kin2.lean').read()
for n,(l,L) in enumerate(legs.items()):
    s = '-' if l[0]=='F' else ''
    old=f"simp [vsF, Cheetah.Jvs_{L}, Leg.joint, Leg.idx, Leg.left, Leg.fore, cos_add, sin_add] <;> ring\n"
    assert old in t
    t=t.replace(old,f'''simp [vsF, Cheetah.Jvs_{L}, Leg.joint, Leg.idx, Leg.left, Leg.fore, cos_add, sin_add] <;>
  first
  | ring1
  | linear_combination ({s}0.19 : ℝ) * sin (q {3*n+1}) * sin_sq_add_cos_sq (q {3*n})
''')
open('/verif/lean/Verif/Lemmas/Kin2.lean','w').write(t)
o='''import Verif.Lemmas.Kin1

/-!
# Closed forms of the generated body and spatial Jacobians
-/
namespace Drift
open Matrix Real

'''
for fn,(w,v) in {'Jb':('Jwb','Jvb'),'Js':('Jws','Jvs')}.items():
    for n,(l,L) in enumerate(legs.items()):
        a=f'(q {3*n})'; b=f'(q {3*n+1})'; c=f'(q {3*n+2})'
        s = '-' if l[0]=='F' else ''
        E=f'(0.209 * cos {b} + 0.2075 * (cos {b} * cos {c} - sin {b} * sin {c}))'
        for part,top in ((w,True),(v,False)):
            frm,nm=forms[part]
            row='Fin.castAdd 3 i' if top else 'Fin.natAdd 3 i'
            o+=f'''theorem {fn}_{part}_{l} (q : Fin 12 → ℝ) :
    Cols .{l} (fun i : Fin 3 => Cheetah.{fn}_{L} q ({row})) ({frm.format(l=l)}) := by
  intro i j
  fin_cases i <;> fin_cases j <;>
  simp [{nm}, Cheetah.{fn}_{L}, Leg.joint, Leg.idx, Leg.left, Leg.fore, cos_add, sin_add,
    -mul_eq_mul_left_iff, -mul_eq_mul_right_iff] <;>
  first
  | ring1
  | linear_combination (0.2075 : ℝ) * sin_sq_add_cos_sq {c}
  | linear_combination {E} * (sin {b} ^ 2 + cos {b} ^ 2) * sin_sq_add_cos_sq {c}
      + {E} * sin_sq_add_cos_sq {b}
  | linear_combination ({s}0.19 : ℝ) * sin {b} * sin_sq_add_cos_sq {a}

'''
    for part,top in ((w,True),(v,False)):
        frm,nm=forms[part]
        row='Fin.castAdd 3 i' if top else 'Fin.natAdd 3 i'
        frm2=frm.replace('Leg.left .{l}','l.left').replace('Leg.fore .{l}','l.fore').replace('Leg.joint .{l}','l.joint').replace('(l.left)','l.left').replace('(l.fore)','l.fore')
        o+=f'''theorem {fn}_{part}_cols (l : Leg) (q : Fin 12 → ℝ) :
    Cols l (fun i : Fin 3 => Cheetah.{fn} l q ({row})) ({frm2}) := by
  cases l
  · exact {fn}_{part}_FR q
  · exact {fn}_{part}_FL q
  · exact {fn}_{part}_HR q
  · exact {fn}_{part}_HL q

'''
o+="end Drift\n"
open('/verif/lean/Verif/Lemmas/Kin3.lean','w').write(o)
