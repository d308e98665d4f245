"""Regenerate MANIFEST.json from the theorem names in lean/Verif/Props and tools/notes.json."""
import json, re, glob, os
root = os.path.dirname(os.path.dirname(os.path.abspath(__file__)))
thms = {}
for f in sorted(glob.glob(root + "/lean/Verif/Props/*.lean")):
    text = open(f).read()
    # strip block comments
    text = re.sub(r"/-.*?-/", "", text, flags=re.S)
    for m in re.finditer(r"^\s*(?:protected\s+)?theorem\s+(C\d\d+_\w+)", text, re.M):
        name = m.group(1)
        thms.setdefault(name.split("_")[0], []).append("Txstatsd." + name)
notes = json.load(open(root + "/tools/notes.json"))
claims = []
for l in open(root + "/properties.jsonl"):
    pid = json.loads(l)["id"]
    if pid not in thms:
        continue
    n = notes.get(pid, {})
    status = n.get("status")
    if status is None:
        status = "partial" if any(t.endswith("_partial") for t in thms[pid]) else "proved"
    claims.append({"property": pid, "status": status, "theorems": thms[pid], "note": n.get("note", "")})
json.dump({"claims": claims}, open(root + "/MANIFEST.json", "w"), indent=1, ensure_ascii=False)
print(len(claims), "claims", sum(len(c["theorems"]) for c in claims), "theorems")
missing = [json.loads(l)["id"] for l in open(root + "/properties.jsonl") if json.loads(l)["id"] not in thms]
print("missing:", missing)
