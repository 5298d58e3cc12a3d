#!/usr/bin/env python3
# Generates /verif/AXIOMS.md: the axioms of every theorem in MANIFEST.json, from `#print axioms`.
# Run after `lake build` in /verif/lean.
import json,os,re,subprocess,tempfile
root=os.path.dirname(os.path.dirname(os.path.abspath(__file__)))
m=json.load(open(root+'/MANIFEST.json'))
names=[(c['property'],t) for c in m['claims'] for t in c['theorems']]
d=tempfile.mkdtemp(); f=d+'/Ax.lean'
open(f,'w').write('import Verif\n'+''.join('#print axioms %s\n'%t for _,t in names))
out=subprocess.run(['lake','env','lean',f],cwd=root+'/lean',capture_output=True,text=True).stdout
ax={}
for mm in re.finditer(r"'([^']+)' (?:depends on axioms: \[([^\]]*)\]|(does not depend on any axioms))",out):
    ax[mm.group(1)]=tuple(sorted(x.strip() for x in (mm.group(2) or '').split(',') if x.strip()))
groups={}
for p,t in names: groups.setdefault(ax[t],[]).append((p,t))
with open(root+'/AXIOMS.md','w') as o:
    o.write('# Axioms of every theorem in MANIFEST.json\n\nGenerated by `tools/gen_axioms.py` from `#print axioms` (%d theorems).\n'%len(names))
    for a in sorted(groups,key=lambda a:(len(a),a)):
        o.write('\n## %s (%d)\n\n'%(', '.join('`%s`'%x for x in a) if a else 'no axioms',len(groups[a])))
        for p,t in groups[a]: o.write('* %s `%s`\n'%(p,t))
