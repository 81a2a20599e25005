#!/usr/bin/env python3
"""Write MANIFEST.json: theorems are found by their name prefix (C01_...), in the Props files."""
import json, re, glob, os
root = os.path.dirname(os.path.dirname(os.path.abspath(__file__)))
ids = [json.loads(l)["id"] for l in open(root + "/properties.jsonl")]
names = {}
for fn in sorted(glob.glob(root + "/lean/Verif/**/*.lean", recursive=True)):
    txt = open(fn).read()
    ns = "Geouned"
    stack = []
    for line in txt.splitlines():
        m = re.match(r"namespace (\S+)", line)
        if m: stack.append(m.group(1))
        m = re.match(r"end (\S+)", line)
        if m and stack and stack[-1] == m.group(1): stack.pop()
        m = re.match(r"theorem (C\d\d+)_(\S+)", line)
        if m: names.setdefault(m.group(1), []).append(".".join(stack + [f"{m.group(1)}_{m.group(2)}"]))
notes = json.load(open(root + "/tools/notes.json"))
claims = []
for i in ids:
    n = notes.get(i, {})
    ths = names.get(i, [])
    if not ths and n.get("status") != "not_applicable":
        continue
    st = n.get("status") or ("partial" if any("violated" in t or "_partial" in t for t in ths) else "proved")
    claims.append({"property": i, "status": st, "theorems": ths, "note": n.get("note", "")})
json.dump({"claims": claims}, open(root + "/MANIFEST.json", "w"), indent=1, ensure_ascii=False)
for c in claims: print(c["property"], c["status"], len(c["theorems"]))
missing = [i for i in ids if i not in {c["property"] for c in claims}]
print("without theorems:", missing)
