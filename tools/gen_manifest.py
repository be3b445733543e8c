#!/usr/bin/env python3
"""Generates /verif/MANIFEST.json.  Theorem names are collected from lean/Verif/Props/*.lean by
the prefix Cnn_; status and note come from the table below (default: proved)."""
import json, os, re, glob
ROOT=os.path.dirname(os.path.dirname(os.path.abspath(__file__)))
props=[json.loads(l) for l in open(ROOT+'/properties.jsonl')]
thm={}
for f in sorted(glob.glob(ROOT+'/lean/Verif/Props/*.lean')):
    stack=[]
    for line in open(f):
        if m:=re.match(r'namespace (\S+)',line): stack.append(m[1])
        elif (m:=re.match(r'end (\S+)',line)) and stack and stack[-1]==m[1]: stack.pop()
        elif m:=re.match(r'theorem (C\d+_\w*)',line):
            thm.setdefault(m[1].split('_')[0],[]).append('.'.join(stack+[m[1]]))
exec(open(ROOT+'/tools/manifest_table.py').read())
out=[]
for p in props:
    i=p['id']
    if i in STATUS: st,note=STATUS[i]
    elif i in thm: st,note='proved',''
    else: st,note='partial','not modelled yet'
    if i not in thm and st=='partial': note=note or 'not modelled yet'
    out.append(dict(property=i,status=st,theorems=thm.get(i,[]),note=note))
json.dump(dict(claims=out),open(ROOT+'/MANIFEST.json','w'),indent=1)
import collections
print(collections.Counter(o['status'] for o in out), [o['property'] for o in out if not o['theorems']])
