"""Try one machine-made wrong edit per definition of the model, in a random but repeatable order.
Usage: automutate.py SEED [MODEL ...].  Edits are made in a scratch copy; a build is stopped at the first
declaration that fails in a file of lemmas or properties.  Edits that do not typecheck are not logged."""
import json, os, random, re, subprocess, sys

SRC = '/verif/lean'
DST = os.environ.get('AUTO_DST', '/tmp/auto/lean')
LOG = '/verif/seeded/LOG.jsonl'

OPS = [
    (r' ≤ ', ' < '), (r' < ', ' ≤ '), (r'(?<=if )([^=\n]*?) = ', r'\1 ≠ '), (r' ≠ ', ' = '), (r' == ', ' != '), (r' != ', ' == '),
    (r' && ', ' || '), (r' \|\| ', ' && '), (r' ∧ ', ' ∨ '), (r' ∨ ', ' ∧ '),
    (r'(?<![c\w])!(?=[A-Za-z(])', ''), (r'\btrue\b', 'false'), (r'\bfalse\b', 'true'),
    (r'(?<![\w.?])(\d+)\b(?!")', lambda m: str(int(m.group(1)) + 1)),
    (r'c!"([^"\\]+)"', r'c!"\1x"'),
    (r'\n *else if [^\n]* then [^\n]*(?=\n *else)', ''),
    (r'(\b[\w.]+) \+\+ (\b[\w.]+)', r'\2 ++ \1'),
    (r'\.any\b', '.all'), (r'\.all\b', '.any'), (r'\btake\b', 'drop'), (r'\bstartsWith\b', 'endsWith'), (r'\bendsWith\b', 'startsWith'),
    (r'\bsplit1\b', 'rsplit1'), (r'\brsplit1\b', 'split1'), (r'\blower ', 'id '), (r'\bstrip ', 'id '), (r'\bhead\?', 'getLast?'),
    (r'\bgetLast\?', 'head?'), (r' \+ ', ' - '), (r' - ', ' + '), (r'\bmax\b', 'min'), (r'\bmin\b', 'max'),
    (r'\bDict\.set (\w+) (\w+) (\w+)', r'id \1'), (r'\.reverse\b', ''), (r'\.eraseDups\b', ''), (r'\bsome \(', 'none.or (some ('),
    (r'(?<=then )([^\n]+?)(\s+)else ([^\n]+)', lambda m: m.group(3) + m.group(2) + 'else ' + m.group(1)),
    (r'\.1\b', '.2'), (r'\.2\b', '.1'),
]


def strip_comments(t):
    return re.sub(r'/-.*?-/', lambda m: re.sub(r'[^\n]', '\0', m.group(0)),
                  re.sub(r'(?<!/)--[^\n]*', lambda m: '\0' * len(m.group(0)), t), flags=re.S)


def defs(text):
    """(name, start of the body, end) of each definition"""
    clean = strip_comments(text)
    heads = [(m.start(), m.group(1), m.group(2)) for m in re.finditer(
        r'^(?:@\[[^\]]*\] )?(?:private |protected |noncomputable )?(def|abbrev|structure|inductive|theorem|instance|namespace|end|section|mutual|variable|open)\b *(\S*)', clean, flags=re.M)]
    for i, (s, kind, name) in enumerate(heads):
        e = heads[i + 1][0] if i + 1 < len(heads) else len(clean)
        if kind not in ('def', 'abbrev'):
            continue
        b = re.search(r':=|\n *\|', clean[s:e])
        if b:
            yield name, s + b.start(), e, clean


def mutants(text):
    for name, s, e, clean in defs(text):
        body = clean[s:e]
        out = []
        for rx, rep in OPS:
            for m in re.finditer(rx, body):
                if '\0' in m.group(0):
                    continue
                new = m.expand(rep) if isinstance(rep, str) else rep(m)
                if new == m.group(0):
                    continue
                out.append((s + m.start(), s + m.end(), new))
        yield name, out


def decl_at(path, line):
    name = '?'
    for i, l in enumerate(open(path), 1):
        if i > line:
            break
        m = re.match(r'(?:@\[[^\]]*\] )?(?:private |protected )?(theorem|def|example|instance|abbrev|structure|inductive)\s*(\S*)', l)
        if m:
            name = m.group(2) if m.group(1) != 'example' else 'example@%d' % i
    return name


def build():
    p = subprocess.Popen(['lake', 'build'], cwd=DST, stdout=subprocess.PIPE, stderr=subprocess.STDOUT, text=True)
    failed = []
    for l in p.stdout:
        m = re.match(r'error: (Verif/\S+\.lean):(\d+):', l)
        if m:
            item = m.group(1)[len('Verif/'):-5] + '.' + decl_at(os.path.join(DST, m.group(1)), int(m.group(2)))
            if item not in failed:
                failed.append(item)
            if '.example@' not in item:
                p.kill()
                subprocess.run(['pkill', '-P', str(p.pid)])
                p.wait()
                return 1, failed
    return p.wait(), failed


def classify(rc, failed):
    if rc == 0:
        return 'survived'
    if any(x.startswith('Model/') for x in failed):
        return 'invalid'
    names = [x.split('.', 1)[1] for x in failed]
    if any(re.match(r'C\d+_', n) for n in names):
        return 'killed'
    if names and all(n.startswith('example@') for n in names):
        return 'example'
    return 'lemma'


def main():
    rnd = random.Random(int(sys.argv[1]))
    models = sys.argv[2:] or sorted(f[:-5] for f in os.listdir(SRC + '/Verif/Model'))
    os.makedirs(os.path.dirname(DST), exist_ok=True)
    subprocess.run(['rsync', '-a', '--delete', SRC + '/', DST + '/']) if os.path.exists('/usr/bin/rsync') else \
        subprocess.run('rm -rf %s && cp -a %s %s' % (DST, SRC, DST), shell=True, check=True)
    rc, failed = build()
    if rc != 0:
        sys.exit('baseline does not build: %s' % failed)
    for f in models:
        path = os.path.join(DST, 'Verif/Model', f + '.lean')
        orig = open(path).read()
        for name, out in mutants(orig):
            rnd.shuffle(out)
            for s, e, new in out[:4]:
                open(path, 'w').write(orig[:s] + new + orig[e:])
                rc, failed = build()
                result = classify(rc, failed)
                if result == 'invalid':
                    continue
                ls, le = orig.rfind('\n', 0, s) + 1, orig.find('\n', e)
                edit = '%s  ->  %s' % (orig[ls:le].strip(), (orig[ls:s] + new + orig[e:le]).strip())
                print(result, f, name, '|', edit, '|', failed[:3], flush=True)
                open(LOG, 'a').write(json.dumps({
                    'definition': f + '.' + name, 'edit': 'machine-made: ' + edit,
                    'claim': 'not chosen beforehand' if rc == 0 else 'the one of ' + failed[-1].split('.', 1)[1],
                    'result': result, 'failed': failed, 'tightened': []}, ensure_ascii=False) + '\n')
                break
        open(path, 'w').write(orig)


main()
