#!/usr/bin/env python3
"""Translate /repo/src/kinematics/robots/mini_cheetah/*.cpp (straight-line Mathematica output) to Lean.
Every assignment becomes a `let`, in the order of the file; the outputs p_output1(k) become a matrix in column-major
order, as Eigen's operator()(k).  `double` is read as R, Sin/Cos as Real.sin/Real.cos; decimal literals are kept.
The output file is lean/Verif/Model/MiniCheetahGen.lean."""
import re, os
D='/repo/src/kinematics/robots/mini_cheetah/'
out=['import Mathlib.Analysis.SpecialFunctions.Trigonometric.Basic','',
'/-!','# Generated by tools/gen_kin.py from src/kinematics/robots/mini_cheetah/*.cpp: do not edit','',
'Each definition is the function `output1` of the file cited, assignment by assignment; `o k` is `p_output1(k)`,',
'the coefficient `(k % rows, k / rows)` of the returned matrix (Eigen matrices are column-major).','-/','namespace Drift.Cheetah','']
for fn in sorted(os.listdir(D)):
    src=open(D+fn).read()
    i=src.index('static void output1'); j=src.index('{',i); d=0; k=j
    while True:
        if src[k]=='{': d+=1
        if src[k]=='}':
            d-=1
            if d==0: break
        k+=1
    r,c=map(int,re.search(r'Eigen::Matrix<double, ?(\d+), ?(\d+)> ?& ?p_output1',src[i:j]).groups())
    l0=src[:i].count('\n')+1; l1=src[:k].count('\n')+1
    st=[re.sub(r'\s+',' ',s).strip() for s in src[j+1:k].split(';')]
    st=[s for s in st if s and not re.match(r'double t\d+$',s)]
    name=fn[:-4].replace('_Body_to_','_').replace('Foot','')
    o={}; lets=[]
    def tr(e):
        e=re.sub(r'var1\[(\d+)\]',r'(q \1)',e)
        e=re.sub(r'Cos\(\(q (\d+)\)\)',r'Real.cos (q \1)',e); e=re.sub(r'Sin\(\(q (\d+)\)\)',r'Real.sin (q \1)',e)
        e=re.sub(r'(?<![\w.])(\d+)\.(?!\d)',r'\1',e)      # 1. -> 1
        e=re.sub(r'\s*\*\s*',' * ',e)
        assert re.fullmatch(r'(Real\.cos \(q \d+\)|Real\.sin \(q \d+\)|t\d+|\d+(\.\d+)?|[-+*() ])*',e), e
        return e
    for s in st:
        m=re.fullmatch(r't(\d+) = (.*)',s)
        if m: assert not o; lets.append(('t'+m.group(1),tr(m.group(2)))); continue
        m=re.fullmatch(r'p_output1\((\d+)\) ?= ?(.*)',s); assert m,s
        assert int(m.group(1)) not in o
        o[int(m.group(1))]=tr(m.group(2))
    assert sorted(o)==list(range(r*c))
    assert len(set(n for n,_ in lets))==len(lets)
    # every temporary is assigned before it is used
    seen=set()
    for n,e in lets:
        assert set(re.findall(r't\d+',e))<=seen,(fn,n); seen.add(n)
    for e in o.values(): assert set(re.findall(r't\d+',e))<=seen
    out.append(f'/-- {fn}:{l0}-{l1}, a {r} x {c} matrix -/')
    out.append(f'noncomputable def {name} (q : Fin 12 → ℝ) : Matrix (Fin {r}) (Fin {c}) ℝ :=')
    for n,e in lets: out.append(f'  let {n} : ℝ := {e}')
    rows=[]
    for a in range(r): rows.append('    '+', '.join('('+o[a+r*b]+')' if not re.fullmatch(r'[\w.]+',o[a+r*b]) else o[a+r*b] for b in range(c)))
    out.append('  !!['+';\n'.join(rows).strip()+']')
    out.append('')
out.append('end Drift.Cheetah')
open('/verif/lean/Verif/Model/MiniCheetahGen.lean','w').write('\n'.join(out)+'\n')
