"""Automatic seeded bugs.  Usage: automutate.py out.jsonl [per_def] [seed] [file-regex]
Picks, in each definition of the model, up to per_def syntactic edits of the kinds a programmer gets wrong (comparison, negated test, and/or,
constant, error kind, dropped element, swapped order), rebuilds a scratch copy and stops at the first error.  Edits that do not compile are dropped.
Result lines: {"definition","file","edit","caught","theorems_failed"} ; survivors have caught=false."""
import json, os, random, re, shutil, signal, subprocess, sys, time, glob
SRC = os.environ.get('MUT_SRC', '/tmp/snap/lean'); DST = os.environ.get('MUT_DST', '/tmp/auto/lean')
OPS = [
    (r'(?<![<≤≥>=])≤', '<'), (r' < ', ' ≤ '), (r' ≥ ', ' > '), (r' > ', ' ≥ '),
    (r'\bif (?!let\b|h :|_h :)(.+?) then\b', lambda m: 'if ¬ (%s) then' % m.group(1)),
    (r' = ', ' ≠ '), (r' ≠ ', ' = '), (r' == ', ' != '), (r' != ', ' == '),
    (r'&&', '||'), (r'\|\|', '&&'), (r' ∧ ', ' ∨ '), (r' ∨ ', ' ∧ '), (r' ∈ ', ' ∉ '), (r' ∉ ', ' ∈ '),
    (r'\btrue\b', 'false'), (r'\bfalse\b', 'true'),
    (r'(?<![\w.])(\d+)(?![\w.])', lambda m: str(int(m.group(1)) + 1)),
    (r'\.keyError\b', '.valueError'), (r'\.valueError\b', '.typeError'), (r'\.attributeError\b', '.keyError'), (r'\.typeError\b', '.valueError'),
    (r'\.storageError\b', '.keyError'), (r'\.collectionCapacity\b', '.groupCapacity'), (r'\.groupCapacity\b', '.collectionCapacity'),
    (r'\.jsonLd\b', '.valueError'), (r'\.objectOverwrite\b', '.keyError'), (r'\.fileExists\b', '.fileNotFound'), (r'\.notImplemented\b', '.keyError'),
    (r'(\b[\w.]+|\([^()]*\)) \+\+ (\b[\w.]+|\([^()]*\))', lambda m: m.group(2) + ' ++ ' + m.group(1)),
    (r'(\b[\w.]+|\([^()]*\)) \+\+ ', ''), (r'(\b[\w.]+|\([^()]*\)) :: ', ''),
    (r' \+ 1\b', ''), (r' - 1\b', ''), (r' \+ ', ' - '), (r' - ', ' + '),
    (r'"([^"\\]+)"', lambda m: '"%sX"' % m.group(1)),
    (r'\.head\?', '.getLast?'), (r'\.getLast\?', '.head?'), (r'\.reverse\b', ''),
    (r'\.any\b', '.all'), (r'\.all\b', '.any'), (r'\.isSome\b', '.isNone'), (r'\.isNone\b', '.isSome'), (r'\.tail\b', ''), (r'\.foldl\b', '.foldr'),
    (r'\bsome (\w+)\b', 'none'), (r'\.dset \S+ \S+', ''), (r'\.take\b', '.drop'), (r'\.drop\b', '.take'),
]
SKIP = {'AS/Tables.lean', 'AS/Rows.lean'}
def defs(path):
    s = open(path).read()
    for m in re.finditer(r'^(?:@\[.*\]\s*)?(?:private |noncomputable |protected )*def\s+([^\s:({\[]+)', s, re.M):
        e = re.compile(r'\n(?=(?:/--|def |theorem |end|section|namespace|variable|instance|structure|inductive|abbrev|mutual|/-!|open |@\[|termination_by|decreasing_by|private|noncomputable|deriving|example|\w+ \w+ in\n))').search(s, m.end())
        end = e.start() if e else len(s)
        head = s[m.start():end]
        b = re.search(r':=|\n\s*\|', head)
        if b: yield m.group(1), m.start() + b.start(), end, s
def sites(s, a, z):
    out = []
    body = s[a:z]
    comments = [(m.start(), m.end()) for m in re.finditer(r'--.*|/-.*?-/', body, re.S)] if '--' in body else []
    comments = [(m.start(), m.end()) for m in re.finditer(r'--[^\n]*', body)]
    for pat, rep in OPS:
        for m in re.finditer(pat, body):
            if any(c <= m.start() < d for c, d in comments): continue
            new = rep(m) if callable(rep) else rep
            if new != m.group(0): out.append((a + m.start(), a + m.end(), new))
    return out
def owner(path, line):
    ls = open(path).read().split('\n')
    for i in range(min(line, len(ls)) - 1, -1, -1):
        m = re.match(r'(?:@\[.*\]\s*)?(?:private |noncomputable |protected )*(theorem|lemma|def|example|instance|structure|inductive)\s*([^\s:({\[]*)', ls[i])
        if m: return m.group(1), m.group(2) or ('example@%d' % (i + 1))
    return '?', '?'
def build(mutfile):
    p = subprocess.Popen(['nice', '-n', '10', 'lake', 'build'], cwd=DST, stdout=subprocess.PIPE, stderr=subprocess.STDOUT, text=True, start_new_session=True)
    t0 = time.time(); res = None
    for line in p.stdout:
        m = re.search(r'error: (Verif/[\w/]+\.lean):(\d+):', line)
        if m:
            k, n = owner(os.path.join(DST, m.group(1)), int(m.group(2)))
            if m.group(1) == 'Verif/' + mutfile and k in ('def', 'instance', 'structure', 'inductive', '?'):
                res = ('invalid', n)
            else:
                res = ('caught', m.group(1)[6:-5].replace('/', '.') + ':' + n)
            break
        if time.time() - t0 > 1500: res = ('timeout', ''); break
    try: os.killpg(p.pid, signal.SIGKILL)
    except ProcessLookupError: pass
    rc = p.wait()
    if res is None: res = ('survived', '') if rc == 0 else ('invalid', 'rc')
    return res
def main():
    out = sys.argv[1]; per = int(sys.argv[2]) if len(sys.argv) > 2 else 1; seed = int(sys.argv[3]) if len(sys.argv) > 3 else 1
    rx = re.compile(sys.argv[4] if len(sys.argv) > 4 else '.')
    rnd = random.Random(seed); todo = []
    # NEW=1: only definitions that have no line in the log yet
    done_before = set()
    if os.environ.get('NEW'):
        for l in open(os.environ.get('LOG', '/verif/seeded/LOG.jsonl')):
            for n in re.split(r'[\s,/()]+', str(json.loads(l).get('definition'))): done_before.add(n.split('.')[-1])
    for f in sorted(glob.glob(SRC + '/Verif/**/*.lean', recursive=True)):
        rel = f[len(SRC) + 7:]
        if re.search('^(Props|Lemmas|Spec)/', rel) or rel in SKIP or not rx.search(rel): continue
        for name, a, z, s in defs(f):
            if name.split('.')[-1] in done_before: continue
            ss = sites(s, a, z); rnd.shuffle(ss)
            todo.append((rel, name, s, ss))
    rnd.shuffle(todo)
    seen = set()
    if os.path.exists(out):
        for l in open(out):
            d = json.loads(l); seen.add((d['file'], d['definition'], d['edit']))
    for rel, name, s, ss in todo:
        done = 0
        for a, z, new in ss[:6]:
            if done >= per: break
            ls, le = s.rfind('\n', 0, a) + 1, s.find('\n', z)
            edit = s[ls:le].strip() + '  ==>  ' + (s[ls:a] + new + s[z:le]).strip()
            if (rel, name, edit) in seen: done += 1; continue
            shutil.rmtree(DST, ignore_errors=True); shutil.copytree(SRC, DST, symlinks=True)
            open(os.path.join(DST, 'Verif', rel), 'w').write(s[:a] + new + s[z:])
            kind, who = build(rel)
            if kind == 'invalid': continue
            done += 1
            print(kind.upper(), rel, name, '|', edit[:150].replace('\n', ' '), '|', who, flush=True)
            open(out, 'a').write(json.dumps({"definition": name, "file": rel, "edit": edit, "caught": kind == 'caught', "kind": kind,
                                             "theorems_failed": [who] if who else []}, ensure_ascii=False) + '\n')
if __name__ == '__main__': main()
