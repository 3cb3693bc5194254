#!/usr/bin/env python3
"""Run seeded faults: tools/mutate.py FILE.json [first [last]]

FILE.json is a list of {"definition","file","old","new","edit","claim"}.
The project is copied outside /verif and built. For each fault the edited module and all modules that import
it are joined into one file (the others are imported as built), Lean elaborates the file, and every C-theorem whose proof now rests on a failed proof (sorryAx through error recovery) is listed.
"""
import atexit, json, os, re, shutil, subprocess, sys, tempfile
from concurrent.futures import ThreadPoolExecutor
ROOT = tempfile.mkdtemp(prefix='mutws') + '/lean'
shutil.copytree(os.environ.get('SRC', '/verif/lean'), ROOT, symlinks=True)
atexit.register(shutil.rmtree, os.path.dirname(ROOT), True)
subprocess.run(['lake', 'build'], cwd=ROOT, check=True, capture_output=True)

def order():
    seen, out = set(), []
    def visit(mod):
        if mod in seen: return
        seen.add(mod)
        for l in open(f"{ROOT}/{mod.replace('.', '/')}.lean"):
            m = re.match(r'import (Verif\S*)', l)
            if m: visit(m.group(1))
        out.append(mod)
    visit('Verif')
    return [m for m in out if m != 'Verif']

MODS = order()
SRC = {m: open(f"{ROOT}/{m.replace('.', '/')}.lean").read() for m in MODS}

def imports(m): return re.findall(r'^import (Verif\S*)', SRC[m], re.M)

def downstream(key):
    out = [key]
    for m in MODS:
        if m not in out and any(i in out for i in imports(m)): out.append(m)
    return [m for m in MODS if m in out]

def joined(src, mods):
    imps, body = [], []
    for m in mods:
        for l in src[m].splitlines():
            if re.match(r'import ', l):
                if l.split()[1] not in mods and l not in imps: imps.append(l)
            else: body.append(l)
    return imps, body

def names(mods):
    out = []
    for m in mods:
        if '.Thm.' in m:
            out += ['Rstsr.' + n for n in re.findall(r'^theorem (C\d+_\w+)', src_of(m), re.M)]
    return out
def src_of(m): return SRC[m]

TAIL = '''
open Lean in
run_cmd do
  for n in [%s] do
    if (← getEnv).contains n then
      let ax ← Lean.collectAxioms n
      if ax.contains ``sorryAx then logInfo m!"AFFECTED {n}"
    else logInfo m!"AFFECTED {n}"
'''

DECL = r'(private |protected )?(theorem|def|example|instance|lemma|run_cmd)\b'

def run(mut):
    src = dict(SRC)
    key = 'Verif.' + mut['file'].replace('/', '.').replace('.lean', '')
    if mut['old'] != '':
        if src[key].count(mut['old']) != 1:
            return {'bad': f"pattern occurs {src[key].count(mut['old'])} times"}
        src[key] = src[key].replace(mut['old'], mut['new'])
    mods = downstream(key)
    imps, body = joined(src, mods)
    txt = '\n'.join(imps + ['import Lean.Elab.Command', 'import Lean.Util.CollectAxioms'] + body) + TAIL % ', '.join('`' + n for n in names(mods))
    d = tempfile.mkdtemp(prefix='mut')
    f = d + '/All.lean'
    open(f, 'w').write(txt)
    r = subprocess.run(['lake', 'env', 'lean', '-DmaxErrors=0', f] if False else ['lake', 'env', 'lean', f],
                       cwd=ROOT, capture_output=True, text=True, timeout=3000)
    out = r.stdout + r.stderr
    open(d + '/out', 'w').write(out)
    aff = [a.replace('Rstsr.', '') for a in re.findall(r'AFFECTED (\S+)', out)]
    errs = len(re.findall(r'error:', out))
    lines = txt.splitlines()
    direct = []
    for m in re.finditer(r'All\.lean:(\d+):\d+: error', out):
        i = int(m.group(1)) - 1
        if lines[i].startswith('/--'):
            while not re.match(DECL, lines[i]): i += 1
        while i > 0 and not re.match(DECL, lines[i]): i -= 1
        n = re.match(r'\S+\s*(\S*)', lines[i]).group(1) if not lines[i].startswith('example') else 'example'
        if n not in direct: direct.append(n)
    aff += [n for n in direct if re.match(r'C\d+_', n) and n not in aff]
    return {'affected': aff, 'errors': errs, 'direct': direct, 'dir': d}

if __name__ == '__main__':
    muts = json.load(open(sys.argv[1]))
    a = int(sys.argv[2]) if len(sys.argv) > 2 else 0
    b = int(sys.argv[3]) if len(sys.argv) > 3 else len(muts)
    with ThreadPoolExecutor(int(os.environ.get('JOBS', '2'))) as ex:
        for i, (m, r) in enumerate(zip(muts[a:b], ex.map(run, muts[a:b]))):
            if 'bad' in r: print(a + i, m['definition'], 'BAD', r['bad'], flush=True); continue
            hit = [t for t in r['affected'] if t[:3] == m['claim'][:3]]
            print(a + i, m['definition'], m['claim'][:3], 'HIT' if hit else 'MISS', len(hit), 'of', len(r['affected']), 'direct', r['direct'][:8], flush=True)
            json.dump({**m, **r}, open(f"/tmp/mut_{os.path.basename(sys.argv[1])}_{a+i}.json", 'w'))
