"""Apply one wrong edit at a time to a scratch copy of the model, rebuild, and record which
declarations fail.  Usage: mutate.py BATCH.py, where BATCH.py defines MUTATIONS, a list of
(model file, definition, old text, new text, edit in words, claim broken
[, theorems tightened or added because an earlier run survived])."""
import json, os, re, shutil, subprocess, sys

SRC = '/verif/lean'
DST = '/tmp/scratch/lean'
LOG = '/verif/seeded/LOG.jsonl'


def sync():
    os.makedirs('/tmp/scratch', exist_ok=True)
    subprocess.run(['rsync', '-a', '--delete', SRC + '/', DST + '/'], check=False) \
        if shutil.which('rsync') else subprocess.run(
            'rm -rf %s && cp -a %s %s' % (DST, SRC, DST), shell=True, check=True)
    # the committed sources, whatever is being edited at the moment
    subprocess.run('git -C /verif archive HEAD lean | tar -x -C /tmp/scratch', shell=True, check=True)


def classify(rc, failed):
    """killed: a property theorem itself fails.  lemma: only supporting lemmas fail, so the
    property theorems that use them were not reached.  example: only concrete cases fail, which
    says nothing about the theorems.  invalid: the edited model does not typecheck."""
    if rc == 0:
        return 'survived'
    if any(x.startswith('Model/') for x in failed):
        return 'invalid'
    names = [x.split('.', 1)[1] for x in failed]
    if any(re.match(r'C\d+_', n) for n in names):
        return 'killed'
    if names and all(n.startswith('example@') for n in names):
        return 'example'
    return 'lemma'


def decl_at(path, line):
    name = '?'
    for i, l in enumerate(open(path), 1):
        if i > line:
            break
        m = re.match(r'(?:@\[[^\]]*\] )?(?:private |protected )?(theorem|def|example|instance|abbrev|structure|inductive)\s*(\S*)', l)
        if m:
            name = m.group(2) if m.group(1) != 'example' else 'example@%d' % i
    return name


def build():
    p = subprocess.run(['lake', 'build'], cwd=DST, capture_output=True, text=True, timeout=1500)
    out = p.stdout + p.stderr
    failed = []
    for m in re.finditer(r'error: (Verif/\S+\.lean):(\d+):', out):
        d = decl_at(os.path.join(DST, m.group(1)), int(m.group(2)))
        item = m.group(1)[len('Verif/'):-5] + '.' + d
        if item not in failed:
            failed.append(item)
    return p.returncode, failed


def main():
    ns = {}
    exec(open(sys.argv[1]).read(), ns)
    sync()
    rc, failed = build()
    if rc != 0:
        sys.exit('baseline does not build, nothing tried: %s' % failed)
    for (f, d, old, new, edit, claim, *tight) in ns['MUTATIONS']:
        path = os.path.join(DST, 'Verif/Model', f + '.lean')
        orig = open(path).read()
        if orig.count(old) < 1:
            print('NOT FOUND', f, d, repr(old))
            continue
        # edit the first occurrence after the definition
        m = re.search(r'(def|abbrev|structure|inductive) %s\b' % re.escape(d), orig)
        k = orig.find(old, m.start() if m else 0)
        if k < 0:
            print('NOT FOUND after def', f, d, repr(old))
            continue
        open(path, 'w').write(orig[:k] + new + orig[k + len(old):])
        rc, failed = build()
        open(path, 'w').write(orig)
        result = classify(rc, failed)
        print(result, f, d, '|', edit, '|', failed[:6])
        sys.stdout.flush()
        rec = {'definition': f + '.' + d, 'edit': edit, 'claim': claim, 'result': result,
               'failed': failed, 'tightened': tight[0] if tight else []}
        open(LOG, 'a').write(json.dumps(rec) + '\n')
    build()


main()
