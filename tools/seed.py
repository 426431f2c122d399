#!/usr/bin/env python3
"""Seeded-bug runner.

usage: seed.py MUTANTS.py [id ...]      (needs an up-to-date `lake build` in /verif/lean)

MUTANTS.py defines MUTANTS = [dict(id, file, defn, old, new, edit, claim, breaks, props=None)].  For each mutant the model
file is edited in a scratch directory (never in /verif), every module that depends on it and leads to a property file
is recompiled there with seed/mk.lean.txt (which writes the .olean even when proofs fail: the failed declarations
then carry Lean's error axiom), and seed/ax.lean.txt lists the property theorems that rest on a failed proof.
Results: /tmp/seed/results/<id>.json
"""
import sys, os, re, json, subprocess, time, runpy, shutil
from concurrent.futures import ThreadPoolExecutor, wait, FIRST_COMPLETED
LEAN = os.environ.get('SEED_LEAN', '/verif/lean'); BUILD = LEAN + '/.lake/build/lib/lean'; S = '/tmp/seed'
HERE = os.path.dirname(os.path.abspath(__file__))
LP = subprocess.run(['lake', 'env', 'printenv', 'LEAN_PATH'], cwd=LEAN, capture_output=True, text=True).stdout.strip()
TIMEOUT = 900

def modules():
    m = {}
    for d, _, fs in os.walk(LEAN + '/Verif'):
        for f in fs:
            if f.endswith('.lean'):
                p = os.path.join(d, f)
                name = os.path.relpath(p, LEAN)[:-5].replace('/', '.')
                m[name] = [l.split()[1] for l in open(p) if l.startswith('import Verif.')]
    return m

def deps_of(mods, x):
    seen, st = set(), [x]
    while st:
        y = st.pop()
        for i in mods[y]:
            if i not in seen: seen.add(i); st.append(i)
    return seen

def run(mu, jobs=3):
    t0 = time.time()
    mods = modules(); alld = {x: deps_of(mods, x) for x in mods}
    src = mu['file']; target = 'Verif.' + src.replace('/', '.')
    D = f"{S}/m_{mu['id']}"; shutil.rmtree(D, ignore_errors=True)
    for x in mods:
        o = f"{D}/{x.replace('.', '/')}.olean"; os.makedirs(os.path.dirname(o), exist_ok=True)
        b = f"{BUILD}/{x.replace('.', '/')}.olean"
        if os.path.exists(b): os.symlink(b, o)
    txt = open(f'{LEAN}/Verif/{src}.lean').read()
    eds = mu['old'] if isinstance(mu['old'], list) else [(mu['old'], mu['new'])]
    for a, b in eds:
        assert txt.count(a) == 1, (mu['id'], a, txt.count(a))
        txt = txt.replace(a, b)
    msrc = f"{D}/mutant.lean"; open(msrc, 'w').write(txt)
    props = [x for x in mods if x.startswith('Verif.Props.') and target in alld[x]]
    if mu.get('props'): props = [x for x in props if x.split('.')[-1] in mu['props']]
    need = {target} | {x for x in mods if target in alld[x] and (x in props or any(x in alld[p] for p in props))}
    env = dict(os.environ, LEAN_PATH=LP.replace(BUILD, D))
    errs, status = {}, {}
    def comp(x):
        o = f"{D}/{x.replace('.', '/')}.olean"
        if os.path.lexists(o): os.remove(o)
        if any(status.get(i) == 'lost' for i in mods[x] if i in need): return 'lost', ''
        s = msrc if x == target else f"{LEAN}/{x.replace('.', '/')}.lean"
        try:
            r = subprocess.run(['lean', '--run', f'{S}/mk.lean', x, s, o], env=env, capture_output=True, text=True, timeout=TIMEOUT)
        except subprocess.TimeoutExpired:
            return 'lost', 'timeout'
        st = 'ok' if r.returncode == 0 else ('err' if os.path.exists(o) else 'lost')
        return st, r.stdout + r.stderr
    with ThreadPoolExecutor(jobs) as ex:
        fut, todo = {}, set(need)
        while todo or fut:
            for x in sorted(todo):
                if all(i not in need or i in status for i in mods[x]):
                    todo.discard(x); fut[ex.submit(comp, x)] = x
            done, _ = wait(fut, return_when=FIRST_COMPLETED)
            for f in done:
                x = fut.pop(f); st, out = f.result(); status[x] = st
                if st != 'ok': errs[x] = out[:3000]
    def have(n): return set(f'Scrypt.Props.{t}' for t in re.findall(r"^theorem (C\d\d_[\w']*)", open(f"{LEAN}/{n.replace('.', '/')}.lean").read(), re.M))
    bad, ok, direct = set(), set(), set()
    live = [p for p in props if status[p] != 'lost']
    for p in props:
        if status[p] == 'lost': bad |= have(p)
    if live:
        r = subprocess.run(['lean', '--run', f'{S}/ax.lean'] + live, env=env, capture_output=True, text=True)
        for l in r.stdout.splitlines():
            k, n = l.split(' ', 1)
            {'BAD': bad, 'OK': ok, 'DIRECT': direct}[k].add(n)
        for p in live: bad |= have(p) - ok
    short = lambda s: sorted(x.replace('Scrypt.', '').replace('Props.', '') for x in s)
    res = dict(id=mu['id'], defn=mu['defn'], file=src, edit=mu['edit'], claim=mu['claim'], breaks=mu['breaks'], failed=short(bad),
               survived=short(ok), direct=short(direct), errors={k: v for k, v in errs.items()}, status=status, secs=round(time.time() - t0))
    os.makedirs(S + '/results', exist_ok=True)
    json.dump(res, open(f"{S}/results/{mu['id']}.json", 'w'), indent=1)
    shutil.rmtree(D, ignore_errors=True)
    cl = mu['claim'] if isinstance(mu['claim'], list) else [mu['claim']]
    got = {c: sum(1 for x in res['failed'] if x.startswith(c)) for c in cl}
    srv = {c: [x for x in res['survived'] if x.startswith(c)] for c in cl}
    print(mu['id'], 'KILLED' if all(got.values()) else '*** SURVIVED ***', got, 'surviving:', srv, 'mutant compiles:', status[target], f"{res['secs']}s", flush=True)

if __name__ == '__main__':
    ms = runpy.run_path(sys.argv[1])['MUTANTS']
    os.makedirs(S, exist_ok=True)
    for a in ('mk', 'ax'): shutil.copy(f'{HERE}/seed/{a}.lean.txt', f'{S}/{a}.lean')
    sel = sys.argv[2:]
    for mu in ms:
        if not sel or mu['id'] in sel:
            if not sel and os.path.exists(f"{S}/results/{mu['id']}.json"): continue
            try: run(mu)
            except AssertionError as e: print('EDIT FAILED', e, flush=True)
