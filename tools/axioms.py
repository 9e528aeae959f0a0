#!/usr/bin/env python3
"""Axioms of every theorem in MANIFEST.json, via `#print axioms` in a scratch file; writes tools/axioms.json."""
import json, subprocess, re, os
root=os.path.dirname(os.path.dirname(os.path.abspath(__file__)))
T=[t for c in json.load(open(root+'/MANIFEST.json'))['claims'] for t in c['theorems']]
T=list(dict.fromkeys(T))
open('/tmp/ax.lean','w').write('import Verif\n'+''.join('#print axioms %s\n'%t for t in T))
out=subprocess.run(['lake','env','lean','/tmp/ax.lean'],cwd=root+'/lean',capture_output=True,text=True).stdout
R={}
for m in re.finditer(r"'([^']+(?:'+)?)' (?:depends on axioms: \[([^\]]*)\]|does not depend on any axioms)",out):
    R[m.group(1)]=sorted(x.strip() for x in (m.group(2) or '').split(',') if x.strip())
miss=[t for t in T if t not in R]
json.dump({t:R.get(t) for t in T},open(root+'/tools/axioms.json','w'),indent=0)
from collections import Counter
print(len(T),'theorems, missing',miss[:5],Counter(tuple(v) for v in R.values()))
