import json, sys
p = '/verif/tools/notes.json'
d = json.load(open(p))
d[sys.argv[1]] = sys.argv[2]
json.dump(d, open(p, 'w'), indent=1, sort_keys=True)
