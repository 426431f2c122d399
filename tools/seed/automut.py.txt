import sys, os, re, json, subprocess, time, shutil, random
from concurrent.futures import ThreadPoolExecutor, wait, FIRST_COMPLETED
LEAN=os.environ.get('SEED_LEAN','/tmp/snap'); BUILD=LEAN+'/.lake/build/lib/lean'
LP=subprocess.run(['lake','env','printenv','LEAN_PATH'],cwd=LEAN,capture_output=True,text=True).stdout.strip()
JOBS=int(os.environ.get('JOBS','3'))
def modules():
    m={}
    for d,_,fs in os.walk(LEAN+'/Verif'):
        for f in fs:
            if f.endswith('.lean'):
                p=os.path.join(d,f); name=os.path.relpath(p,LEAN)[:-5].replace('/','.')
                m[name]=[l.split()[1] for l in open(p) if l.startswith('import Verif.')]
    return m
mods=modules()
def deps_of(x):
    seen,st=set(),[x]
    while st:
        y=st.pop()
        for i in mods[y]:
            if i not in seen: seen.add(i); st.append(i)
    return seen
alld={x:deps_of(x) for x in mods}
OPS=[(r' < ',' ≤ '),(r' ≤ ',' < '),(r' > ',' ≥ '),(r' ≥ ',' > '),(r' = ',' ≠ '),(r' ≠ ',' = '),(r' && ',' || '),(r' \|\| ',' && '),(r' ∧ ',' ∨ '),(r' ∨ ',' ∧ '),
 (r' \+ ',' - '),(r' - ',' + '),(r'\btrue\b','false'),(r'\bfalse\b','true'),(r' \+\+ \[[^\]]*\]',''),(r'\.1\b(?!\.)','.2'),(r'\.2\b(?!\.)','.1'),
 (r' <<< ',' >>> '),(r' \^\^\^ ',' ||| '),(r' &&& ',' ||| '),(r'\b!',''),(r'\.OK\b','.ENOMEM'),(r'\.E[A-Z0-9]+\b','.OK'),(r'\bsome \(','none --('),(r'\bzero64\b','s.dk')]
def candidates(fn):
    txt=open(f'{LEAN}/Verif/{fn}.lean').read()
    # blank comments
    def bl(m): return re.sub(r'[^\n]',' ',m.group(0))
    t=re.sub(r'/-.*?-/',bl,txt,flags=re.S); t=re.sub(r'--[^\n]*',bl,t)
    # def regions only
    out=[]
    for m in re.finditer(r'^(noncomputable )?def (\S+)[^\n]*(\n(?!(def|structure|inductive|abbrev|theorem|end|namespace|noncomputable|open|/--|instance|section|@)).*)*',t,flags=re.M):
        s=m.group(0); a=m.start()
        k=s.find(':='); 
        pat=re.search(r'\n\s*\|',s)
        if k<0 and not pat: continue
        b0=min([x for x in [k, pat.start() if pat else -1] if x>=0])
        body=s[b0+ (2 if b0==k else 0):]; base=a+b0+(2 if b0==k else 0)
        name=m.group(2)
        for p,r in OPS:
            for q in re.finditer(p,body):
                if p==r' = ' and not re.search(r'\b(if|∧|∨|decide|&&|\|\|)[^\n]*$',body[:q.start()].split('\n')[-1]): continue
                out.append((name,base+q.start(),base+q.end(),r))
        for q in re.finditer(r'(?<![\w.#])(\d+)(?![\w#.])',body):
            n=int(q.group(1)); 
            out.append((name,base+q.start(),base+q.end(),str(n+1)))
            if n>0: out.append((name,base+q.start(),base+q.end(),str(n-1)))
        for q in re.finditer(r'\b(0x[0-9a-fA-F]+)(?=#|\b)',body):
            out.append((name,base+q.start(),base+q.end(),hex(int(q.group(1),16)^1)))
    return txt,out
def comp(x,D,src,env,to=900,root=None):
    o=f"{D}/{x.replace('.','/')}.olean"
    if os.path.lexists(o): os.remove(o)
    try:
        r=subprocess.run(['lean','-R',root or LEAN,'-o',o,src],cwd=root or LEAN,env=env,capture_output=True,text=True,timeout=to)
    except subprocess.TimeoutExpired: return 1,['timeout']
    errs=[l[:200] for l in (r.stdout+r.stderr).split('\n') if 'error' in l]
    return (r.returncode if not errs else 1), errs
def strong(x,errs):
    # is one of the errors inside a theorem (not an example / example definition)?
    L=open(f"{LEAN}/{x.replace('.','/')}.lean").read().split('\n')
    w=None
    for e in errs:
        m=re.search(r'\.lean:(\d+):',e)
        if not m: return e
        i=int(m.group(1))-1
        while i>=0 and not re.match(r'(private |noncomputable |protected |@\[[^\]]*\] )*(theorem|lemma|def|example|instance|structure|inductive|abbrev)\b',L[i]): i-=1
        h=L[i] if i>=0 else ''
        mm=re.match(r'(?:private |noncomputable |protected |@\[[^\]]*\] )*(theorem|lemma|def|example|instance|structure|inductive|abbrev)\s*(\S*)',h)
        if mm and (mm.group(1)=='example' or mm.group(2).split('.')[-1].startswith('ex') or x.endswith('Ex')): w=w or None; continue
        return (mm.group(2) if mm else '?')+' '+e
    return None
def run(fn,name,a,b,rep,txt,idx):
    t0=time.time(); target='Verif.'+fn.replace('/','.')
    D=f'/tmp/auto/m_{idx}'; shutil.rmtree(D,ignore_errors=True)
    for x in mods:
        o=f"{D}/{x.replace('.','/')}.olean"; os.makedirs(os.path.dirname(o),exist_ok=True)
        bb=f"{BUILD}/{x.replace('.','/')}.olean"
        if os.path.exists(bb): os.symlink(bb,o)
    mt=txt[:a]+rep+txt[b:]; msrc=f'{D}/src/Verif/{fn}.lean'; os.makedirs(os.path.dirname(msrc),exist_ok=True); open(msrc,'w').write(mt)
    ln=txt[:a].count('\n'); line=mt.split('\n')[ln]; old=txt.split('\n')[ln]
    res=dict(idx=idx,file=fn,defn=name,line=ln+1,old=old.strip(),new=line.strip())
    env=dict(os.environ,LEAN_PATH=LP.replace(BUILD,D))
    rc,e=comp(target,D,msrc,env,root=f'{D}/src')
    if rc!=0:
        shutil.rmtree(D,ignore_errors=True); return dict(res,status='invalid',why=e[:1])
    need={x for x in mods if target in alld[x] and x!='Verif'}
    done=set(); killed=None; weak=[]
    with ThreadPoolExecutor(JOBS) as ex:
        fut={}; left=set(need)
        def sched():
            if killed: return
            rdy=sorted([x for x in left if all(i in done or i not in need for i in mods[x])],key=lambda x:len(alld[x]))
            for x in rdy:
                if len(fut)>=JOBS: break
                left.discard(x); fut[ex.submit(comp,x,D,f"{LEAN}/{x.replace('.','/')}.lean",env)]=x
        sched()
        while fut:
            d,_=wait(fut,return_when=FIRST_COMPLETED)
            for f in d:
                x=fut.pop(f); rc,e=f.result()
                if rc!=0 and not killed and not strong(x,e): weak.append((x,e[:1])); 
                elif rc!=0 and not killed:
                    killed=(x,strong(x,e))
                    subprocess.run(['pkill','-f',D+'/'])  # stop others
                else: done.add(x)
            sched()
    shutil.rmtree(D,ignore_errors=True)
    return dict(res,status='killed' if killed else 'WEAK' if weak else 'SURVIVED',by=killed or weak,time=round(time.time()-t0))
def main():
    files=sys.argv[1].split(','); n=int(sys.argv[2]); seed=int(sys.argv[3]); random.seed(seed)
    log=f'/tmp/auto/log.jsonl'
    seen=set()
    if os.path.exists(log):
        for l in open(log):
            r=json.loads(l); seen.add((r['file'],r['line'],r['new']))
    for fn in files:
        txt,c=candidates('Model/'+fn); random.shuffle(c); k=0
        for i,(name,a,b,rep) in enumerate(c):
            if k>=n: break
            mt=txt[:a]+rep+txt[b:]; ln=txt[:a].count('\n'); key=('Model/'+fn,ln+1,mt.split('\n')[ln].strip())
            if key in seen: continue
            seen.add(key)
            r=run('Model/'+fn,name,a,b,rep,txt,f'{fn}_{seed}_{i}')
            open(log,'a').write(json.dumps(r,ensure_ascii=False)+'\n')
            if r['status']!='invalid': k+=1
            print(fn,name,r['status'],r.get('time'),'|',r['new'][:100] if r['status'] in ('SURVIVED','WEAK') else '',flush=True)
main()
