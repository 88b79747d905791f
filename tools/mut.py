import json,re,subprocess,sys,os,collections,time
S=os.environ.get('SCR','/tmp/scratch'); LOG='/verif/seeded/LOG.jsonl'
# dependency closure
decl={}; ranges=collections.defaultdict(list)
for l in open('/tmp/work/deps.txt'):
    m,n,a,b,d=l.rstrip('\n').split('\t')
    decl[n]=d.split()
    if int(a): ranges[m].append((int(a),int(b),n))
import functools
rev=collections.defaultdict(set)
for n,ds in decl.items():
    for d in ds: rev[d].add(n)
def users(ns):
    seen=set(ns); st=list(ns)
    while st:
        x=st.pop()
        for u in rev[x]:
            if u not in seen: seen.add(u); st.append(u)
    return seen
isprop=lambda n: re.search(r'Props\.C\d+_\w+$',n) and '._' not in n
def run(mu):
    f=S+'/lean/Verif/'+mu['file']
    t=open(f).read()
    k=t.count(mu['old'])
    occ=mu.get('occ',1)
    if k<occ or (k>1 and 'occ' not in mu and 'in' not in mu): print('BAD',mu['def'],k); return
    if mu.get('in'):
        a=t.index(mu['in']); e=t.find('\n\n',a); e=len(t) if e<0 else e
        seg=t[a:e]
        if seg.count(mu['old'])<1: print('BAD',mu['def'],mu['old']); return
        if seg.count(mu['old'])>1 and 'occ' not in mu: print('BAD multiple',mu['def'],mu['old']); return
        parts=seg.split(mu['old'])
        new=t[:a]+mu['old'].join(parts[:occ])+mu['new']+mu['old'].join(parts[occ:])+t[e:]
    else:
        parts=t.split(mu['old'])
        new=mu['old'].join(parts[:occ])+mu['new']+mu['old'].join(parts[occ:])
    open(f,'w').write(new)
    nlines_delta=new.count('\n')-t.count('\n')
    t0=time.time()
    p=subprocess.run('nice lake build 2>&1',shell=True,cwd=S+'/lean',capture_output=True,text=True)
    open(f,'w').write(t)
    out=p.stdout
    open('/tmp/work/mutlast.txt','w').write(out)
    failed=set(); raw=[]
    for m in re.finditer(r'^error: (?:\S*?)Verif/(\S+?)\.lean:(\d+):\d+: (.*)',out,re.M):
        mod='Verif.'+m.group(1).replace('/','.'); ln=int(m.group(2))
        c=[(b-a,n) for a,b,n in ranges[mod] if a<=ln<=b]
        if c: failed.add(min(c)[1])
        else: raw.append(f'{mod}:{ln}')
    us=users(failed)
    props=sorted(n.replace('Verif.Props.','') for n in us if isprop(n))
    e={'definition':mu['def'],'edit':f"{mu['file']}: `{mu['old'].strip()}` -> `{mu['new'].strip()}`",'claim_broken':mu['claim'],
       'lemmas_with_errors':sorted(failed),'theorems_failed':props,'theorems_tightened':mu.get('tight',[])}
    if mu.get('note'): e['note']=mu['note']
    model_err=[n for n in failed if any(n==x for m in ranges if m.startswith('Verif.Model') for _,_,x in ranges[m])]
    print(time.strftime('%H:%M'),mu['def'],mu['claim'],'| errs',len(failed),raw[:3],'| props',len(props),props[:6],'MODELERR' if model_err else '', 'SURVIVED' if not failed and not raw else '',f'{time.time()-t0:.0f}s',flush=True)
    want=mu.get('want')
    if want:
        miss=[w for w in want if not any(p.startswith(w) for p in props)]
        if miss: print('   MISSING',miss,flush=True)
    if not model_err:
        open(LOG,'a').write(json.dumps(e,ensure_ascii=False)+'\n')
muts=json.load(open(sys.argv[1]))
for mu in muts: run(mu)
