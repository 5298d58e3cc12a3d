#!/usr/bin/env python3
# Generates /verif/MANIFEST.json: theorems cNN_* found in lean/Verif/Props, statuses/notes from notes.json.
import re,json,glob,os
root=os.path.dirname(os.path.dirname(os.path.abspath(__file__)))
thms={}
for f in sorted(glob.glob(root+'/lean/Verif/Props/*.lean')):
    ns=[]
    for line in open(f):
        m=re.match(r'namespace (\S+)',line)
        if m: ns.append(m.group(1)); continue
        m=re.match(r'end (\S+)',line)
        if m and ns and ns[-1]==m.group(1): ns.pop(); continue
        m=re.match(r'(?:@\[[^\]]*\]\s*)?theorem (c(\d\d)_\w+)',line)
        if m: thms.setdefault('C'+m.group(2),[]).append('.'.join(ns+[m.group(1)]))
ids=[json.loads(l)['id'] for l in open(root+'/properties.jsonl')]
notes=json.load(open(root+'/tools/notes.json'))
claims=[]
for i in ids:
    n=notes.get(i,{})
    if i in thms:
        claims.append(dict(property=i,status=n.get('status','proved'),theorems=thms[i],note=n.get('note','')))
    elif n.get('status')=='not_applicable':
        claims.append(dict(property=i,status='not_applicable',theorems=[],note=n['note']))
    else: print('missing',i)
json.dump(dict(claims=claims),open(root+'/MANIFEST.json','w'),indent=1)
