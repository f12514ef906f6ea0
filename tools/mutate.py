"""Seeded-bug runner.  Usage: mutate.py mutants.json [prefix]
Each mutant: {"def":..., "file": "Storage/Group.lean", "old":..., "new":..., "claim": "C11: ..."}
Copies /verif/lean to a scratch directory, applies one textual edit to the model, rebuilds
and appends a line to /verif/seeded/LOG.jsonl with the theorems that stopped proving."""
import json, os, re, shutil, subprocess, sys
SRC = os.environ.get('MUT_SRC', '/verif/lean'); DST = os.environ.get('MUT_DST', '/tmp/mut/lean')
def sync():  # full copy: the project is small
    subprocess.run(['rsync', '-a', '--delete', SRC + '/', DST + '/'], check=True) if shutil.which('rsync') else \
        (shutil.rmtree(DST, ignore_errors=True), shutil.copytree(SRC, DST, symlinks=True))
def owner(path, line):
    ls = open(path).read().split('\n')
    for i in range(min(line, len(ls)) - 1, -1, -1):
        m = re.match(r'(?:@\[.*\]\s*)?(?:private |noncomputable |protected )*(theorem|lemma|def|example|instance|structure|inductive)\s*([^\s:({\[]*)', ls[i])
        if m: return m.group(2) or ('example@%d' % (i + 1))
    return '?'
def run(m):
    sync()
    p = os.path.join(DST, 'Verif', m['file'])
    s = open(p).read()
    n = s.count(m['old'])
    if n != 1:
        print('SKIP', m['def'], 'matches', n); return
    open(p, 'w').write(s.replace(m['old'], m['new']))
    r = subprocess.run(['lake', 'build'] + m.get('targets', []), cwd=DST, capture_output=True, text=True)
    out = r.stdout + r.stderr
    failed, modelerr = [], []
    for f, l in re.findall(r'error: (Verif/[\w/]+\.lean):(\d+):', out):
        o = owner(os.path.join(DST, f), int(l))
        name = f[6:-5].replace('/', '.') + ':' + o
        (modelerr if f == 'Verif/' + m['file'] and not re.search('/(Props|Lemmas)/', f) else failed).append(name)
    failed = list(dict.fromkeys(failed)); modelerr = list(dict.fromkeys(modelerr))
    if m.get('auto') and modelerr:  # the edit does not type-check: no program
        print('INVALID ', m['def'], '|', m['claim'][:60], flush=True); return
    skipped = re.findall(r'^- (Verif\.\S+)', out, re.M)
    rec = {"definition": m['def'], "file": m['file'], "edit": m['old'].strip() + '  ==>  ' + m['new'].strip(),
           "claim_broken": m['claim'], "caught": r.returncode != 0, "theorems_failed": failed,
           "theorems_tightened": m.get('tightened', [])}
    if modelerr: rec["model_errors"] = modelerr
    if m.get('note'): rec["note"] = m['note']
    print(('CAUGHT  ' if r.returncode else 'SURVIVED'), m['def'], '|', m['claim'][:60], '|', failed[:4], modelerr[:2], flush=True)
    open('/verif/seeded/LOG.jsonl', 'a').write(json.dumps(rec, ensure_ascii=False) + '\n')
if __name__ == '__main__':
    for m in json.load(open(sys.argv[1])):
        run(m)
