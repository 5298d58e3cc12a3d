#!/usr/bin/env python3
"""Transcribes every function of make_vector.hh and data_functions.hh into a table of
(returned size, size of the local, parameter names, assignments in order).  Output: lean/Verif/Model/GenTables.lean.
Fails on any line that does not have the expected form, so nothing of the two files is skipped."""
import re,sys
out=sys.argv[1] if len(sys.argv)>1 else '/verif/lean/Verif/Model/GenTables.lean'
def parse(path,kind):
    L=open(path).read().split('\n')
    assert L[0]=='//Mechanically generate code. Do not edit.' and L[1]=='namespace TooN {' and L[2].startswith('//modify')
    fs=[];i=3
    while True:
        if L[i]=='}':
            assert all(l=='' for l in L[i+1:]); break
        h=L[i]; gen=False
        if h.startswith('template<typename Precision> '): gen=True; h=h[len('template<typename Precision> '):]
        T='Precision' if gen else 'double'
        A='const Precision& ' if gen else 'double '
        if kind=='v':
            m=re.fullmatch(r'inline Vector<(\d+)%s> makeVector\((.*)\)\{'%(', Precision' if gen else ''),h)
        else:
            m=re.fullmatch(r'inline Operator<Internal::Data<(\d+), %s> > Data\((.*)\)\{'%T,h)
        assert m,(i,h)
        ret=int(m[1]); ps=[]
        for a in m[2].split(', '):
            k=re.fullmatch(re.escape(A)+r'x(\d+)',a); assert k,(i,a); ps.append(int(k[1]))
        start=i+1; i+=1
        if kind=='v': k=re.fullmatch(r'  Vector<(\d+)%s> vals;'%(', Precision' if gen else ''),L[i])
        else: k=re.fullmatch(r'  Operator<Internal::Data<(\d+), %s> > d;'%T,L[i])
        assert k,(i,L[i]); loc=int(k[1]); i+=1
        lhs=[];rhs=[]
        pre='vals' if kind=='v' else r'd\.vals'
        while True:
            k=re.fullmatch(r'  '+pre+r'\[(\d+)\] = x(\d+);',L[i])
            if not k: break
            lhs.append(int(k[1])); rhs.append(int(k[2])); i+=1
        assert L[i]=='  return %s;'%('vals' if kind=='v' else 'd'),(i,L[i]); i+=1
        assert L[i]=='}',(i,L[i])
        fs.append((gen,ret,loc,ps,lhs,rhs,start,i+1)); i+=1
    return fs
o=['import Verif.Model.Generated',
'/-!','# The functions `makeVector` and `Data`, transcribed','',
'Written by `tools/gen_tables.py` from make_vector.hh and data_functions.hh: every function of the two files, each statement of its',
'body.  An entry is `⟨template, returned size, size of the local, parameters x₁…, indices assigned, parameters assigned from⟩`.',
'-/','namespace TooN.Generated','']
for kind,path,name in (('v','TooN/internal/make_vector.hh','makeVector'),('d','TooN/internal/data_functions.hh','data')):
    fs=parse('/repo/'+path,kind)
    names=[]
    for gen,ret,loc,ps,lhs,rhs,a,b in fs:
        n='%s%s%d'%(name,'T' if gen else 'D',ret)
        assert n not in names
        names.append(n)
        o.append('/-- %s:%d-%d -/'%(path.split('/')[-1],a,b))
        o.append('def %s : Fn := ⟨%s, %d, %d, %s, %s, %s⟩'%(n,'true' if gen else 'false',ret,loc,str(ps),str(lhs),str(rhs)))
    o.append('')
    o.append('/-- all functions of %s -/'%path.split('/')[-1])
    t='def %sAll : List Fn := ['%name; line=t; ls=[]
    for n in names:
        if len(line)+len(n)+2>130: ls.append(line); line='  '
        line+=n+', '
    ls.append(line.rstrip(', ')+']')
    o+=ls; o.append('')
o.append('end TooN.Generated')
open(out,'w').write('\n'.join(o)+'\n')
