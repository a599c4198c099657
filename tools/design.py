#!/usr/bin/env python3
"""Write DESIGN.md: the hand-written head plus one line per property."""
import json, os
os.chdir(os.path.join(os.path.dirname(os.path.abspath(__file__)), ".."))
head = open("tools/design_head.md").read()
extra = open("tools/design_models.md").read().strip() if os.path.exists("tools/design_models.md") else ""
st = json.load(open("tools/status.json"))
man = {c["property"]: c for c in json.load(open("MANIFEST.json"))["claims"]}
out = [head.replace("@EXTRA_MODELS@", extra).replace("\n\n\n", "\n\n"), "## Per property\n", "| id | property | model (first anchor) | status | theorems | what is proved, refuted, missing |", "|--|--|--|--|--|--|"]
for l in open("properties.jsonl"):
    p = json.loads(l)
    s = st[p["id"]]
    ths = ", ".join(f"`{t.split('.')[-1]}`" for t in man[p["id"]]["theorems"])
    mods = sorted({t.split('.')[1] for t in man[p["id"]]["theorems"]})
    out.append(f"| {p['id']} | {p['title']} | {', '.join(mods)}: {p['anchors'][0]} | {s[0]} | {ths} | {s[1] or 'as stated'} |")
open("DESIGN.md", "w").write("\n".join(out) + "\n")
