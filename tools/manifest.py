"""Writes MANIFEST.json from the table below; theorem names are checked to occur in lean/Verif/Props."""
import json, re, glob, os
here = os.path.dirname(os.path.dirname(os.path.abspath(__file__)))
T = {}
def c(pid, status, theorems, note=""):
    T[pid] = dict(property=pid, status=status, theorems=["Verif.Props." + t for t in theorems.split()], note=note)
exec(open(os.path.join(here, "tools", "claims.py")).read())
src = "\n".join(open(f).read() for f in glob.glob(os.path.join(here, "lean/Verif/Props/*.lean")))
names = set(re.findall(r"^theorem\s+(\S+)", src, re.M))
for v in T.values():
    for t in v["theorems"]:
        assert t.split(".")[-1] in names, t
ids = [json.loads(l)["id"] for l in open(os.path.join(here, "properties.jsonl"))]
for i in T: assert i in ids, i
json.dump({"claims": [T[i] for i in ids if i in T]}, open(os.path.join(here, "MANIFEST.json"), "w"), indent=1)
print(len(T), "of", len(ids), "missing:", [i for i in ids if i not in T])
