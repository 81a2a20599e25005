"""DESIGN.md = tools/design_head.md + table of properties (properties.jsonl, MANIFEST.json, tools/plan.json) + tools/design_tail.md"""
import json
V="/verif/"
props=[json.loads(l) for l in open(V+"properties.jsonl")]
man={c["property"]:c for c in json.load(open(V+"MANIFEST.json"))["claims"]}
plan=json.load(open(V+"tools/plan.json"))
o=open(V+"tools/design_head.md").read()
o+="\n## Properties: what is modelled and how it is proved\n\n| id | property | model | proof | status | theorems |\n|--|--|--|--|--|--|\n"
miss=[]
for q in props:
    i=q["id"]; m=man[i]; pl=plan.get(i)
    if not pl: miss.append(i); pl=["",""]
    o+=f"| {i} | {q['title']} | {pl[0]} | {pl[1]} | {m['status']} | {', '.join('`'+t+'`' for t in m['theorems'])} |\n"
o+="\nRemarks per property (what is missing in the partial ones):\n\n"
for q in props:
    n=man[q["id"]].get("note")
    if n: o+=f"* **{q['id']}** {n}\n"
o+="\n"+open(V+"tools/design_tail.md").read()
open(V+"DESIGN.md","w").write(o)
print("no plan:",miss)
