#!/usr/bin/env python3
"""Make seeded faults mechanically: tools/mutgen.py OUT.json PER_DEF SEED [FILE ...]

For every definition of lean/Verif/Model that no fault in seeded/LOG.jsonl has touched (or of the named files),
apply small edits (boundary, swapped branch, dropped update, swapped argument, wrong constant) and keep those that
still compile in the module itself.
"""
import glob, json, os, random, re, subprocess, sys, tempfile
from concurrent.futures import ThreadPoolExecutor
SRC = os.environ.get('SRC', '/verif/lean')
out, per, seed = sys.argv[1], int(sys.argv[2]), int(sys.argv[3])
only = sys.argv[4:]
random.seed(seed)
seen = set()
for l in open('/verif/seeded/LOG.jsonl'): seen |= set(re.findall(r"[\w.']+", str(json.loads(l).get('definition', ''))))
for f in os.environ.get('ALSO', '').split():
    for b in json.load(open(f)): seen |= set(re.findall(r"[\w.']+", b['definition']))
OPS = [(r' \+ 1\b', ''), (r' - 1\b', ''), (r' \+ ', ' - '), (r' - ', ' + '), (r' < ', ' ≤ '), (r' ≤ ', ' < '), (r' == ', ' != '), (r' != ', ' == '),
  (r' = (?!.*:=)', ' ≠ '), (r'&&', '||'), (r'\|\|', '&&'), (r' ∧ ', ' ∨ '), (r'\btrue\b', 'false'), (r'\bfalse\b', 'true'), (r'(?<=[ (])\.C\b', '.F'), (r'(?<=[ (])\.F\b', '.C'),
  (r' \* ', ' + '), (r'\bmax\b', 'min'), (r'\bmin\b', 'max'), (r'\.drop\b', '.take'), (r'\.take\b', '.drop'), (r'\.reverse\b', ''),
  (r'\b0\b', '1'), (r'\b1\b', '0'), (r'\b2\b', '3'), (r'\.1\b', '.2'), (r'\.2\b', '.1'), (r'\bif (?!let)(?!h :)(.+?) then', r'if ¬ (\1) then'),
  (r'\bif (?!let)(?!h :)(.+?) then', r'if (\1) ∨ True then'),
  (r'\.U\b', '.L'), (r'\.L\b', '.U'), (r' / ', ' * '), (r' % ', ' / '), (r'\.filter ', '.filter (!·) <| '), (r'\.any\b', '.all'), (r'\.all\b', '.any'),
  (r'\.head\?', '.getLast?'), (r'\.getLast\?', '.head?'), (r'\.set (\S+) (\S+)', ''), (r'\.tail\b', ''), (r'\.dropLast\b', ''), (r'\.eraseDups\b', ''),
  (r'\bdim\b', 'str'), (r'\brow\b', 'col'), (r'\bcol\b', 'row'), (r'\bm\b', 'n'), (r'\bn\b', 'm'), (r'\ba\b', 'b'), (r'\bb\b', 'a'), (r'\bla\b', 'lb'), (r'\blb\b', 'la'), (r'\blc\b', 'la'),
  (r'\bi\b', 'j'), (r'\bj\b', 'i'), (r'\bk\b', '(k + 1)'), (r'\bx\b', 'y'), (r'\by\b', 'x'), (r'\bshape\b', 'stride'), (r'\.none\b', '.some'), (r'\boffset\b', '(offset + 1)'),
  (r'\.error \.\w+', '.error .panic'), (r'\bmap\b', 'filterMap some <| List.map'), (r'\.size\b', '.ndim'), (r'\bnot\b', 'id'), (r'!', '')]
def blocks(txt):
    "(name, start of body, end)"
    starts = [m.start() for m in re.finditer(r'^(?:/--|@\[|private |noncomputable |def |theorem |structure |inductive |instance |abbrev |section|end|variable|open|namespace|/-!)', txt, re.M)] + [len(txt)]
    for m in re.finditer(r'^(?:private |noncomputable )*def (\S+)', txt, re.M):
        e = min(s for s in starts if s > m.start() + 3)
        head = txt[m.start():e]
        b = re.search(r':=|\n  \|', head)
        if b: yield m.group(1), m.start() + b.start(), e
cands = []
for f in sorted(glob.glob(SRC + '/Verif/Model/*.lean')):
    base = os.path.basename(f)
    if only and base not in only: continue
    if base == 'LebedevTable.lean': continue
    txt = open(f).read()
    for name, s, e in blocks(txt):
        if name in seen or name.split('.')[-1] in seen: continue
        sites = []
        body = txt[s:e]
        for pat, rep in OPS:
            for m in re.finditer(pat, body):
                new = m.expand(rep)
                if new != m.group(0): sites.append((s + m.start(), s + m.end(), new))
        random.shuffle(sites)
        cands.append((base, name, txt, sites))
def compiles(args):
    base, name, txt, sites = args
    good = []
    for a, b, new in sites[:per * 8]:
        if len(good) >= per: break
        t = txt[:a] + new + txt[b:]
        d = tempfile.mkdtemp(prefix='mg')
        p = d + '/' + base
        open(p, 'w').write(t)
        try: r = subprocess.run(['lake', 'env', 'lean', p], cwd=SRC, capture_output=True, text=True, timeout=100)
        except subprocess.TimeoutExpired: continue
        if 'error' in r.stdout: continue
        la = txt.rfind('\n', 0, a) + 1
        lb = txt.find('\n', b)
        good.append({'definition': name, 'file': 'Model/' + base, 'at': a, 'old': txt[a:b], 'new': new, 'edit': f"`{txt[la:lb].strip()}` becomes `{t[la:lb + len(t) - len(txt)].strip()}`", 'full': t, 'claim': ''})
    return good
res = []
with ThreadPoolExecutor(int(os.environ.get('JOBS', '3'))) as ex:
    for g in ex.map(compiles, cands):
        res += g
        json.dump(res, open(out, 'w'))
print(len(cands), 'definitions', len(res), 'faults')
