#!/usr/bin/env python3
"""Mutation testing of the theorems.

usage: mutate.py SPEC.py   -- SPEC.py defines MUTANTS, a list of (file, definition, old, new, edit in words, claim broken)
Works in /tmp/mut/lean (a copy of /verif/lean with its build products); appends one JSON line per mutant to
/verif/seeded/LOG.jsonl. `old` must occur exactly once in the file (after the text of `definition`).
"""
import json, os, re, subprocess, sys, shutil
SRC = '/verif/lean'; DST = '/tmp/mut/lean'; LOG = '/verif/seeded/LOG.jsonl'
def sync():
    os.makedirs('/tmp/mut', exist_ok=True)
    if not os.path.exists('/tmp/mut/base') : subprocess.check_call(['cp', '-a', SRC, '/tmp/mut/base'])
    subprocess.check_call(['rm', '-rf', DST]); subprocess.check_call(['cp', '-a', '/tmp/mut/base', DST])
DECL = re.compile(r'^(?:@\[[^\]]*\] *)?(?:private |protected |noncomputable )*(theorem|lemma|def|example|abbrev|structure|inductive|instance)\s*([^\s:({\[]*)')
def encl(path, line):
    ls = open(path).read().split('\n')
    for i in range(min(line, len(ls)) - 1, -1, -1):
        m = DECL.match(ls[i])
        if m: return (m.group(2) or 'example') if m.group(1) != 'example' else 'example@%s:%d' % (os.path.basename(path), i + 1)
    return '?'
def decls():
    d = {}
    for root, _, fs in os.walk(DST + '/Verif'):
        for f in fs:
            if not f.endswith('.lean'): continue
            cur = None
            for l in open(os.path.join(root, f)):
                m = DECL.match(l)
                if m: cur = m.group(2) or None
                if cur: d.setdefault(cur, []).append(l)
    return {k: set(re.findall(r"[A-Za-z_][A-Za-z0-9_'.₀-₉]*", ' '.join(v))) for k, v in d.items()}
def closure(failed):
    """Theorems C.. whose proof text refers (transitively) to a failed declaration."""
    d = decls(); bad = set(x.split('.')[-1] for x in failed); full = set(failed)
    names = {k: k.split('.')[-1] for k in d}
    ch = True
    while ch:
        ch = False
        for k, toks in d.items():
            if k in full or names[k] in bad and k in full: continue
            if any(t.split('.')[-1] in bad for t in toks if t != k):
                if k.startswith('example'): continue
                full.add(k); bad.add(names[k]); ch = True
    return sorted(k for k in full if re.match(r'C\d+_', k))
def main():
    ns = {}; exec(open(sys.argv[1]).read(), ns)
    only = set(map(int, sys.argv[2:]))
    subprocess.call(['rm', '-rf', '/tmp/mut/base'])
    for i, (f, defn, old, new, edit, claim) in enumerate(ns['MUTANTS']):
        if only and i not in only: continue
        sync()
        p = DST + '/Verif/' + f
        orig = open(p).read()
        k = orig.find(defn)
        if k < 0: print(i, 'DEF NOT FOUND', defn); continue
        k2 = orig.find(old, k)
        if k2 < 0: print(i, 'OLD NOT FOUND', old); continue
        open(p, 'w').write(orig[:k2] + new + orig[k2 + len(old):])
        r = subprocess.run(['lake', 'build'], cwd=DST, capture_output=True, text=True)
        out = r.stdout + r.stderr
        direct, broken = [], []
        for m in re.finditer(r'error: (Verif/[^:]*\.lean):(\d+):', out):
            e = encl(DST + '/' + m.group(1), int(m.group(2)))
            if e not in direct: direct.append(e)
        dname = defn.split()[-1]
        res = {'definition': f'{f}: {dname}', 'edit': edit, 'old': old, 'new': new, 'claim': claim,
               'verdict': 'survived' if r.returncode == 0 else ('model does not compile' if any(x == dname for x in direct) else 'caught'),
               'failed': direct, 'theorems_failed': closure([x for x in direct if '@' not in x]) if r.returncode else [], 'tightened': []}
        print(i, res['verdict'], dname, '|', edit, '|', direct[:6], '|', res['theorems_failed'][:12], flush=True)
        with open(LOG, 'a') as g: g.write(json.dumps(res, ensure_ascii=False) + '\n')
main()
