#!/usr/bin/env python3
"""Fix the line ranges in citations `file.c:a-b `symbol`` of the model files (functions and macros)."""
import re,glob,os,sys
root=os.path.dirname(os.path.dirname(os.path.abspath(__file__)))
R={}
for d,_,fs in os.walk('/repo'):
    for f in fs:
        if not f.endswith(('.c','.h')): continue
        L=open(os.path.join(d,f),errors='replace').read().split('\n')
        for n,l in enumerate(L):
            m=re.match(r'^(\w+)\(',l)
            if m and n>0 and L[n-1].strip() and not L[n-1].startswith(('#','/',' *')):
                e=n
                while e<len(L) and L[e]!='}' and not (L[e].endswith(';') and L[e][0] not in '\t '): e+=1
                if e<len(L) and L[e]=='}':
                    R[(f,m.group(1))]=(n if not L[n-1].startswith('static inline') else n, e+1)
            m=re.match(r'^#define\s+(\w+)',l)
            if m:
                e=n
                while L[e].endswith('\\'): e+=1
                R.setdefault((f,m.group(1)),(n+1,e+1))
            m=re.match(r'^static inline .*?(\w+)\(',l)
            if m:
                e=n
                while L[e]!='}': e+=1
                R[(f,m.group(1))]=(n+1,e+1)
for p in glob.glob(root+'/lean/Verif/Model/*.lean'):
    s=open(p).read(); cur=None
    def rep(m):
        k=(m.group(1),m.group(4))
        if k in R:
            a,b=R[k]
            if (str(a),str(b))!=(m.group(2),m.group(3)): print(os.path.basename(p),k,m.group(2),m.group(3),'->',a,b)
            return f"{m.group(1)}:{a}-{b} `{m.group(4)}`"
        print(os.path.basename(p),'UNKNOWN',m.group(0)); return m.group(0)
    t=re.sub(r'([\w-]+\.[ch]):(\d+)-(\d+) `(\w+)`',rep,s)
    if t!=s: open(p,'w').write(t)
