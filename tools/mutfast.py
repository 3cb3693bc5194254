#!/usr/bin/env python3
"""Run seeded faults and stop at the first broken proofs: tools/mutfast.py FILE.json DEPS.txt OUT.jsonl

FILE.json comes from tools/mutgen.py (or is written by hand, with "old" and "new"). The edited module and all modules
that import it are joined into one file. Lean elaborates it until some seconds after the first failed proof. DEPS.txt
lists for every C-theorem the constants it rests on; the theorems that rest on a failed declaration are the result.
"""
import json, os, re, subprocess, sys, tempfile, threading, time, shutil
from concurrent.futures import ThreadPoolExecutor
ROOT = os.environ.get('SRC', '/verif/lean')
GRACE = float(os.environ.get('GRACE', '25'))
IGNORE = {'bracket_exact', 'tryInto_ok', 'C95_axis', 'C95_axes', 'C95_tuple_partial', 'C95_false_tuple', 'example', 'asIsize_of', 'IndexArg.Fits',
          'asIsize_option', 'C95_index_partial', 'C95_pair_partial', 'C95_pair_lists', 'C95_false_narrow', 'of_fits', 'C51_others', 'C51_convert', 'C51_views'}
DEPS = {}
for l in open(sys.argv[2]):
    w = l.split()
    for x in w[1:]: DEPS.setdefault(x, []).append(w[0].replace('Rstsr.', ''))
def order():
    seen, out = set(), []
    def visit(mod):
        if mod in seen: return
        seen.add(mod)
        for l in open(f"{ROOT}/{mod.replace('.', '/')}.lean"):
            m = re.match(r'import (Verif\S*)', l)
            if m: visit(m.group(1))
        out.append(mod)
    visit('Verif')
    return [m for m in out if m != 'Verif']
MODS = order()
SRC = {m: open(f"{ROOT}/{m.replace('.', '/')}.lean").read() for m in MODS}
def imports(m): return re.findall(r'^import (Verif\S*)', SRC[m], re.M)
def downstream(key):
    out = [key]
    for m in MODS:
        if m not in out and any(i in out for i in imports(m)): out.append(m)
    # modules near the edited one first, as far as imports allow
    depth = {}
    for m in [x for x in MODS if x in out]:
        depth[m] = 0 if m == key else 1 + max(depth[i] for i in imports(m) if i in out)
    return sorted([x for x in MODS if x in out], key=lambda m: depth[m])
DECL = r'(private |protected |noncomputable )*(theorem|def|example|instance|lemma|run_cmd|structure|inductive|abbrev)\b'
def run(mut):
    src = dict(SRC)
    key = 'Verif.' + mut['file'].replace('/', '.').replace('.lean', '')
    if 'full' in mut: src[key] = mut['full']
    else:
        if src[key].count(mut['old']) != 1: return {'bad': f"pattern occurs {src[key].count(mut['old'])} times"}
        src[key] = src[key].replace(mut['old'], mut['new'])
    mods = downstream(key)
    imps, body, modelEnd = [], [], 0
    for m in mods:
        for l in src[m].splitlines():
            if re.match(r'import ', l):
                if l.split()[1] not in mods and l not in imps: imps.append(l)
            else: body.append(l)
        if m == key: modelEnd = len(body)
    lines = imps + body
    modelEnd += len(imps)
    d = tempfile.mkdtemp(prefix='mf')
    open(d + '/All.lean', 'w').write('\n'.join(lines))
    p = subprocess.Popen(['lake', 'env', 'lean', d + '/All.lean'], cwd=ROOT, stdout=subprocess.PIPE, stderr=subprocess.STDOUT, text=True, errors='replace', start_new_session=True)
    direct, first, t0 = [], [None], time.time()
    def killer():
        while p.poll() is None:
            time.sleep(1)
            if (first[0] and time.time() - first[0] > GRACE) or time.time() - t0 > 3300:
                try: os.killpg(p.pid, 9)
                except OSError: pass
                return
    threading.Thread(target=killer, daemon=True).start()
    bad = False
    for l in p.stdout:
        m = re.search(r'All\.lean:(\d+):\d+: error', l)
        if not m: continue
        i = int(m.group(1)) - 1
        if i < modelEnd: bad = True
        if lines[i].startswith('/--'):
            while not re.match(DECL, lines[i]): i += 1
        while i > 0 and not re.match(DECL, lines[i]): i -= 1
        g = re.match(r'(?:private |protected |noncomputable )*(\w+)\s+(\S+)', lines[i])
        n = 'example' if lines[i].startswith('example') else (g.group(2) if g else '?')
        if n not in direct: direct.append(n)
        if n not in IGNORE and not first[0]: first[0] = time.time()
    p.wait()
    shutil.rmtree(d, True)
    aff = set()
    for n in direct:
        if n in IGNORE: continue
        for pre in ('Rstsr.', 'Spec.', 'Rstsr.Layout.', ''):
            aff |= set(DEPS.get(pre + n, []))
        if re.match(r'C\d+_', n): aff.add(n)
    return {'affected': sorted(aff), 'direct': direct, 'secs': round(time.time() - t0), 'stillborn': bad, 'complete': first[0] is None}
if __name__ == '__main__':
    muts = json.load(open(sys.argv[1]))
    done = set()
    if os.path.exists(sys.argv[3]):
        for l in open(sys.argv[3]): done.add(json.loads(l)['i'])
    todo = [(i, m) for i, m in enumerate(muts) if i not in done]
    with ThreadPoolExecutor(int(os.environ.get('JOBS', '3'))) as ex:
        for (i, m), r in zip(todo, ex.map(lambda x: run(x[1]), todo)):
            r = {**{k: v for k, v in m.items() if k != 'full'}, **r, 'i': i}
            open(sys.argv[3], 'a').write(json.dumps(r, ensure_ascii=False) + '\n')
            print(i, m['definition'], r.get('bad') or ('SURVIVED' if not r['affected'] else len(r['affected'])), r.get('secs'), [x for x in r.get('direct', []) if x not in IGNORE][:5], flush=True)
