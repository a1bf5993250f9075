"""Add a note (or the names of tightened theorems) to a line of the log.
Usage: lognote.py DEFINITION TEXT-OF-THE-EDIT NOTE [TIGHTENED ...]"""
import json, sys

LOG = '/verif/seeded/LOG.jsonl'
out, n = [], 0
for line in open(LOG):
    d = json.loads(line)
    if d['definition'] == sys.argv[1] and sys.argv[2] in d['edit']:
        n += 1
        if sys.argv[3]:
            d['note'] = sys.argv[3]
        if sys.argv[4:]:
            d['tightened'] = sys.argv[4:]
        line = json.dumps(d, ensure_ascii=False) + '\n'
    out.append(line)
open(LOG, 'w').writelines(out)
print(n, 'lines')
