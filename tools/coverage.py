#!/usr/bin/env python3
"""Which lines of /repo/TooN are cited by a definition of the model (comments of the form file.h:12-34, 56)."""
import re,glob,os,sys
cited={}
for f in glob.glob('/verif/lean/Verif/**/*.lean',recursive=True):
    t=open(f).read()
    for m in re.finditer(r'([A-Za-z_0-9]+\.(?:hh|h)):((?:\d+(?:\s*[-–]\s*\d+)?)(?:\s*(?:,|and)\s*\d+(?:\s*[-–]\s*\d+)?)*)',t):
        s=cited.setdefault(m.group(1),set())
        for r in re.findall(r'(\d+)(?:\s*[-–]\s*(\d+))?',m.group(2)):
            a=int(r[0]);b=int(r[1] or a)
            s.update(range(a,b+1))
show=sys.argv[1:]
for root,_,fs in os.walk('/repo/TooN'):
    for f in sorted(fs):
        p=os.path.join(root,f)
        L=open(p,errors='replace').read().split('\n')
        code=set()
        inc=False
        for i,l in enumerate(L,1):
            s=l.strip()
            if inc:
                if '*/' in s: inc=False
                continue
            if s.startswith('/*'):
                if '*/' not in s: inc=True
                continue
            if not s or s.startswith('//') or s.startswith('#') or re.fullmatch(r'[{}();\s]*|(public|private|protected):|namespace.*|using .*',s): continue
            code.add(i)
        c=cited.get(f,set())
        un=sorted(code-c)
        if show:
            if f in show:
                for i in un: print(i,L[i-1])
        else: print(f"{len(code&c):5d}/{len(code):5d} {f}")
