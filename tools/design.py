"""Regenerate DESIGN.md."""
import json, re, glob, os, sys
root = os.path.dirname(os.path.dirname(os.path.abspath(__file__)))
sys.path.insert(0, root + "/tools")
from methods import M
docs = {}
for f in sorted(glob.glob(root + "/lean/Verif/Props/*.lean")):
    t = open(f).read()
    for mm in re.finditer(r"/--((?:(?!-/).)*?)-/\s*(?:omit [^\n]*\n\s*)?(?:set_option [^\n]*\n\s*)?theorem (C\d+_\w+)", t, re.S):
        d = " ".join(mm.group(1).split())
        d = re.sub(r"^C\d+(?: \([^)]*\))?[:,]\s*", "", d)
        docs[mm.group(2)] = d
claims = {c["property"]: c for c in json.load(open(root + "/MANIFEST.json"))["claims"]}
props = [json.loads(l) for l in open(root + "/properties.jsonl")]
out = open(root + "/tools/design_head.md").read()
ref = [p for p in props if any("refuted" in t for t in claims.get(p["id"], {"theorems": []})["theorems"])]
out += "\n## 5. Properties\n\n"
out += "Properties that are false of the code, with a machine-checked counterexample: " + ", ".join(p["id"] for p in ref) + ".\n"
for p in props:
    c = claims.get(p["id"])
    if not c: continue
    files, modelled, proof = M[p["id"]]
    out += f"\n### {p['id']} {p['title']} - {c['status']}\n\n{p['statement']}\n\n"
    out += f"* Quantified over: {p['quantifier']}.\n* Modelled (Model/{files}): {modelled}.\n* Proof: {proof}.\n"
    if c["note"]: out += f"* Note: {c['note']}\n"
    out += "* Theorems:\n"
    for t in c["theorems"]:
        n = t.split(".")[-1]
        out += f"  - `{n}`: {docs.get(n, '(see the file)')}\n"
ax = json.load(open(root + "/tools/axioms.json"))
groups = {}
for n, a in sorted(ax.items()): groups.setdefault(tuple(sorted(a)), []).append(n)
out += "\n## 6. Axioms per theorem\n"
for a, ns in sorted(groups.items(), key=lambda x: len(x[0])):
    out += f"\n{', '.join(a) if a else 'No axioms'} ({len(ns)}): {', '.join(ns)}.\n"
open(root + "/DESIGN.md", "w").write(out)
miss = [n for c in claims.values() for n in (t.split('.')[-1] for t in c["theorems"]) if n not in docs]
print("undocumented:", miss, "no axioms entry:", [n for c in claims.values() for n in (t.split('.')[-1] for t in c["theorems"]) if n not in ax])
