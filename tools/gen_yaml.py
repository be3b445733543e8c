#!/usr/bin/env python3
"""Transcribes the configuration files of /repo that the shipped programs load into lean/Verif/Model/Shipped.lean."""
import re
R='/repo/'
ROB=[('miniCheetah','mini_cheetah'),('fetch','fetch'),('girona500','girona500'),('husky','husky'),('huskyOdom','husky_odom'),('neya','neya'),
     ('fetchGyro','fetch_gyro_filter'),('huskyDouble','husky_double_imu_filter'),('huskyGyro','husky_gyro_filter'),('neyaGyro','neya_gyro_filter')]
def strip(l):
    out='';q=False
    for c in l:
        if c=='"': q=not q
        if c=='#' and not q: break
        out+=c
    return out.rstrip()
def val(v):
    v=v.strip()
    if v in('true','false'): return f'.bool {v}'
    if v.startswith('"'): return f'.str {v}'
    if v.startswith('['): return '.seq ['+', '.join(val(x) for x in v[1:-1].split(','))+']'
    m=re.fullmatch(r'(-?)(\d+)',v)
    if m: return f'.int ({v}) "{v}"' if m[1] else f'.int {v} "{v}"'
    m=re.fullmatch(r'(-?)(\d*\.?\d*(?:e[-+]?\d+)?)',v)
    assert m,v
    x=m[2]
    if x.endswith('.'): x+='0'
    return f'.num (-{x}) "{v}"' if m[1] else f'.num {x} "{v}"'
def doc(path):
    secs=[];cur=None
    for n,l in enumerate(open(path)):
        l=strip(l)
        if not l.strip(): continue
        m=re.match(r'^(\w+):$',l)
        if m:
            assert m[1] not in[s for s,_ in secs]; cur=(m[1],[]); secs.append(cur); continue
        m=re.match(r'^\s+(\w+):\s*(\S.*)$',l)
        assert m,(path,n,l)
        assert m[1] not in [k for k,_ in cur[1]],(path,m[1])
        cur[1].append((m[1],val(m[2])))
    body=',\n  '.join(f'("{s}", ['+',\n    '.join(f'("{k}", {v})' for k,v in kv)+'])' for s,kv in secs)
    return body
out=['import Verif.Model.Yaml','','/-!','# The configuration files that the shipped programs load','',
 'Generated by tools/gen_yaml.py from the files named in the comments (comments dropped).','-/','set_option linter.style.longLine false','namespace Drift.Shipped','']
def emit(name,path,src):
    out.append(f'/-- {src} (the whole file) -/\nnoncomputable def {name} : List (String × List (String × YVal)) :=\n  [{doc(path)}]\n')
for n,d in ROB:
    emit(n+'Ros',f'{R}ROS/drift/config/{d}/ros_comm.yaml',f'ROS/drift/config/{d}/ros_comm.yaml')
    emit(n+'Est',f'{R}config/{d}/inekf_estimator.yaml',f'config/{d}/inekf_estimator.yaml')
    emit(n+'Imu',f'{R}config/{d}/imu_propagation.yaml',f'config/{d}/imu_propagation.yaml')
    c='legged_kinematics_correction' if n=='miniCheetah' else 'velocity_correction'
    emit(n+'Corr',f'{R}config/{d}/{c}.yaml',f'config/{d}/{c}.yaml')
    fl='Gyro' in n or 'Double' in n
    if fl: emit(n+'Filter',f'{R}config/{d}/imu_filter.yaml',f'config/{d}/imu_filter.yaml')
    out.append(f'/-- the files loaded by ROS/drift/examples/{d}.cpp -/\nnoncomputable def {n} : Files :=\n  ⟨.of {n}Ros, .of {n}Est, .of {n}Imu, .of {n}Corr, '+(f'.of {n}Filter' if fl else 'fun _ _ => none')+'⟩\n')
out.append('end Drift.Shipped')
open('/verif/lean/Verif/Model/Shipped.lean','w').write('\n'.join(out)+'\n')
