#!/usr/bin/env python3
"""Write seeded/LOG.jsonl from the results of tools/seed.py (one JSON line per attempt) and the hand-written notes in seeded/tightened.json."""
import json, glob, os, re
root = os.path.dirname(os.path.dirname(os.path.abspath(__file__)))
T = json.load(open(root + '/seeded/tightened.json'))
def key(f):
    b = os.path.basename(f)[:-5]; m = re.match(r'([a-z_]+)(\d+)(.*)', b); return (m.group(1), int(m.group(2)), m.group(3)) if m else (b, 0, '')
old = {}
if os.path.exists(root + '/seeded/LOG.jsonl'):
    for l in open(root + '/seeded/LOG.jsonl'):
        if l.strip(): x = json.loads(l); old[x['id']] = x
for f in sorted(glob.glob('/tmp/seed/results/*.json'), key=key):
    r = json.load(open(f))
    t = T.get(r['id'], {})
    cl = r['claim'] if isinstance(r['claim'], list) else [r['claim']]
    killed = all(any(x.startswith(c) for x in r['failed']) for c in cl)
    old[r['id']] = dict(id=r['id'], definition=r['file'] + ': ' + r['defn'], edit=r['edit'], claim=r['claim'], effect=r['breaks'],
                  outcome=t.get('outcome', 'killed' if killed else 'survived'), failed=[x for x in r['failed'] if re.match(r'C\d\d_', x)], first_broken_lemmas=r['direct'][:8],
                  tightened=t.get('tightened', []), note=t.get('note', ''))
if os.path.exists('/tmp/auto/log.jsonl'):   # automatic mutations (seed/automut.py.txt)
    for l in open('/tmp/auto/log.jsonl'):
        r = json.loads(l)
        if r['status'] == 'invalid': continue
        k = 'auto-' + r['idx']; t = T.get(k, {})
        by = r.get('by', [])
        old[k] = dict(id=k, definition=r['file'] + ': ' + r['defn'], edit=r['old'].strip() + '  =>  ' + r['new'].strip(), claim='any', effect='automatic mutation',
                      outcome=t.get('outcome', 'killed' if r['status'] == 'killed' else 'survived'), failed=[], first_broken_lemmas=[by[0] + ': ' + by[1].split()[0]] if len(by) > 1 else by,
                      tightened=t.get('tightened', []), note=t.get('note', ''))
open(root + '/seeded/LOG.jsonl', 'w').write(''.join(json.dumps(old[k], ensure_ascii=False) + '\n' for k in old))
print(len(old), [k for k in old if old[k]['outcome'] == 'survived'])
