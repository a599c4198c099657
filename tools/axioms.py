#!/usr/bin/env python3
"""Print the axioms of every theorem of MANIFEST.json (needs a built lean/)."""
import json, os, subprocess, tempfile
os.chdir(os.path.join(os.path.dirname(os.path.abspath(__file__)), ".."))
ths = [t for c in json.load(open("MANIFEST.json"))["claims"] for t in c["theorems"]]
with tempfile.NamedTemporaryFile("w", suffix=".lean", delete=False) as f:
    f.write("import Verif\n" + "".join(f"#print axioms {t}\n" for t in ths))
print(subprocess.run(["lake", "env", "lean", f.name], cwd="lean", capture_output=True, text=True).stdout)
