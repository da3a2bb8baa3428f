"""Rewrites the table of DESIGN.md from properties.jsonl and MANIFEST.json: python3 tools/design.py"""
import json
import os
import re

root = os.path.abspath(os.path.join(os.path.dirname(__file__), ".."))
claims = {c["property"]: c for c in json.load(open(os.path.join(root, "MANIFEST.json")))["claims"]}
rows = ["| Property | State | Theorems (namespace `Pymech`) | How |", "| --- | --- | --- | --- |"]
for line in open(os.path.join(root, "properties.jsonl")):
    p = json.loads(line)
    c = claims[p["id"]]
    names = ", ".join("`" + t.removeprefix("Pymech.") + "`" for t in c["theorems"])
    rows.append(f"| {p['id']} {p['title'].replace('|', '/')} | {c['status']} | {names} | {c['note'].replace('|', '/')} |")
path = os.path.join(root, "DESIGN.md")
text = open(path).read()
text = re.sub(r"(<!-- table.*?-->\n).*?(<!-- end -->)", lambda m: m.group(1) + "\n" + "\n".join(rows) + "\n\n" + m.group(2), text, flags=re.S)
open(path, "w").write(text)
