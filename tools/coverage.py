#!/usr/bin/env python3
"""Which functions of /repo are cited by a definition of the model.
Citations have the form `path.rs:a-b` (path relative to src/ or to the repository; further
ranges after a comma belong to the same file).  Prints a markdown table."""
import re,glob,os,sys
REPO='/repo'; HERE=os.path.dirname(os.path.dirname(os.path.abspath(__file__)))
files=sorted(glob.glob(REPO+'/src/**/*.rs',recursive=True)+glob.glob(REPO+'/examples/*.rs'))
rel=lambda f:os.path.relpath(f,REPO)
cites={}
for m in sorted(glob.glob(HERE+'/lean/Verif/Model/*.lean')):
    t=open(m).read()
    for x in re.finditer(r'([A-Za-z0-9_/]+\.rs):((?:\d+(?:-\d+)?(?:,\s*)?(?:and )?)+)',t):
        p=x.group(1)
        c=[f for f in files if rel(f)==p or rel(f)=='src/'+p or rel(f).endswith('/'+p)]
        if not c: print('unknown file',p,m,file=sys.stderr); continue
        if len(c)>1:
            c=[f for f in c if rel(f) in (p,'src/'+p)] or c[:1]
        for y in re.finditer(r'(\d+)(?:-(\d+))?',x.group(2)):
            a=int(y.group(1)); b=int(y.group(2) or a)
            cites.setdefault(rel(c[0]),[]).append((a,b,os.path.basename(m)))
out=[]
for f in files:
    L=open(f).read().split('\n')
    # test modules are at the end
    end=len(L)
    for i,l in enumerate(L):
        if l.strip()=='#[cfg(test)]': end=i; break
    fns=[]
    for i,l in enumerate(L[:end]):
        m=re.match(r'\s*(?:pub(?:\(\w+\))? )?(?:unsafe )?fn (\w+|\$i)',l)
        if not m: continue
        # body: find { or ; 
        j=i; depth=0; br=0; seen=False; decl=False
        while j<len(L):
            s=re.sub(r'//.*','',L[j])
            for ch in s:
                if ch=='{': depth+=1; seen=True
                elif ch=='}': depth-=1
                elif ch=='[': br+=1
                elif ch==']': br-=1
                elif ch==';' and not seen and br==0: decl=True
            if decl or (seen and depth<=0): break
            j+=1
        if decl and not seen: continue
        fns.append((m.group(1),i+1,j+1))
    r=rel(f)
    cs=cites.get(r,[])
    done=[];miss=[]
    for n,a,b in fns:
        if any(not(y<a or x>b) for x,y,_ in cs): done.append((n,a))
        else: miss.append((n,a,b))
    out.append((r,done,miss))
tot=sum(len(d) for _,d,_ in out); tm=sum(len(m) for _,_,m in out)
for r,d,m in out:
    print(f'| `{r}` | {len(d)} | '+', '.join(f'`{n}`:{a}' for n,a,b in m)+' |')
print(tot,tm,file=sys.stderr)
