#!/usr/bin/env python3
"""Generates DESIGN.md from design_text.md (prose), design_rows.md (plan per property), MANIFEST.json and axioms.json."""
import json, os, re
root=os.path.dirname(os.path.dirname(os.path.abspath(__file__)))
T=root+'/tools/'
man=json.load(open(root+'/MANIFEST.json'))['claims']
ax=json.load(open(T+'axioms.json'))
props={}
for l in open(root+'/properties.jsonl'):
    p=json.loads(l); props[p['id']]=p
rows={}
for l in open(T+'design_rows.md'):
    f=[x.strip() for x in l.strip().strip('|').split('|')]
    if len(f)==3:
        a=f[0]
        m=re.match(r'C(\d+)-C(\d+)$',a)
        ids=['C%02d'%i for i in range(int(m[1]),int(m[2])+1)] if m else [x.strip() for x in a.split(',')]
        for i in ids: rows[i]=(f[1],f[2])
txt=open(T+'design_text.md').read()
plan='| id | property | modelled | proved by | status |\n|---|---|---|---|---|\n'
for c in man:
    i=c['property']; r=rows.get(i,('',''))
    plan+='| %s | %s | %s | %s | %s |\n'%(i,props[i]['title'],r[0],r[1],c['status'])
axt='| theorem | axioms |\n|---|---|\n'
S={'propext':'p','Classical.choice':'c','Quot.sound':'q'}
axt='| claim | theorems (axioms: p = propext, c = Classical.choice, q = Quot.sound, – = none) |\n|---|---|\n'
for c in man:
    axt+='| %s | %s |\n'%(c['property'],', '.join('`%s` %s'%(t.replace('PreCore.',''),''.join(S[a] for a in ax.get(t) or []) or '–') for t in c['theorems']))
miss='| id | missing or violated |\n|---|---|\n'+''.join('| %s | %s |\n'%(c['property'],c['note'].replace('|','\\|')) for c in man if c['status']!='proved' or c['note'])
open(root+'/DESIGN.md','w').write(txt.replace('@PLAN@',plan).replace('@AXIOMS@',axt).replace('@NOTES@',miss))
nr=[i for i in props if i not in rows]
print('properties without a row:',nr)
