#!/usr/bin/env python3
"""Write AXIOMS.md: the axioms every theorem of MANIFEST.json depends on."""
import json, os, re, subprocess, tempfile
root = os.path.dirname(os.path.dirname(os.path.abspath(__file__)))
ths = [t for c in json.load(open(root + "/MANIFEST.json"))["claims"] for t in c["theorems"]]
with tempfile.NamedTemporaryFile("w", suffix=".lean", delete=False) as f:
    f.write("import Verif\n" + "\n".join(f"#print axioms {t}" for t in ths))
out = subprocess.run(["lake", "env", "lean", f.name], cwd=root + "/lean", capture_output=True, text=True).stdout
got = {m.group(1): " ".join(m.group(2).split()) for m in
       re.finditer(r"'(\S+)' (does not depend on any axioms|depends on axioms: \[[^\]]*\])", out)}
with open(root + "/AXIOMS.md", "w") as g:
    g.write("# Axioms of the claimed theorems\n\nGenerated by tools/axioms.py.\n\n| theorem | axioms |\n|---|---|\n")
    for t in ths:
        a = got[t]
        g.write(f"| `{t}` | {'none' if a.startswith('does') else a[len('depends on axioms: '):]} |\n")
print(len(ths), "theorems")
