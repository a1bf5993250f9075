"""Regenerate MANIFEST.json from the theorem names in lean/Verif/Props and notes.json."""
import glob, json, os, re
root = os.path.dirname(os.path.dirname(os.path.abspath(__file__)))
thms = {}
for f in sorted(glob.glob(root + "/lean/Verif/Props/*.lean")):
    ns = None
    for line in open(f):
        m = re.match(r"namespace (\S+)", line)
        if m:
            ns = m.group(1)
        m = re.match(r"theorem (C\d\d\w*)", line)
        if m:
            thms.setdefault(m.group(1)[:3] if not m.group(1)[3:4].isdigit() else m.group(1)[:4], []).append(ns + "." + m.group(1))
notes = json.load(open(root + "/tools/notes.json"))
claims = []
for line in open(root + "/properties.jsonl"):
    p = json.loads(line)["id"]
    t = thms.get(p, [])
    if not t:
        continue
    partial = any(x.endswith("_partial") or x.endswith("_violated") for x in t)
    claims.append({"property": p, "status": "partial" if partial else "proved", "theorems": t,
                   "note": notes.get(p, "")})
json.dump({"claims": claims}, open(root + "/MANIFEST.json", "w"), indent=1)
print(len(claims), "claims;", sum(c["status"] == "proved" for c in claims), "proved")
