#!/usr/bin/env python3
"""Print the axioms of every theorem named in MANIFEST.json, grouped."""
import json, re, subprocess, collections
ths = [t for c in json.load(open("/verif/MANIFEST.json"))["claims"] for t in c["theorems"]]
ths = list(dict.fromkeys(ths))
src = "import Verif\n" + "".join(f"#print axioms {t}\n" for t in ths)
open("/tmp/axioms.lean", "w").write(src)
out = subprocess.run(["lake", "env", "lean", "/tmp/axioms.lean"], cwd="/verif/lean", capture_output=True, text=True).stdout
out = re.sub(r"\n\s+", " ", out)
groups = collections.defaultdict(list)
for m in re.finditer(r"'([^']+)' (?:depends on axioms: \[([^\]]*)\]|does not depend on any axioms)", out):
    groups[m.group(2) or "none"].append(m.group(1).replace("Ckube.", ""))
assert sum(map(len, groups.values())) == len(ths), (sum(map(len, groups.values())), len(ths))
for k in sorted(groups, key=lambda k: -len(groups[k])):
    print(f"- **{k}** ({len(groups[k])}): " + ", ".join(f"`{t}`" for t in groups[k]))
import sys
if "--write" in sys.argv:
    lines = [f"- **{k}** ({len(groups[k])} theorems): " + ", ".join(f"`{t}`" for t in groups[k]) for k in sorted(groups, key=lambda k: -len(groups[k]))]
    t = open("/verif/DESIGN.md").read()
    a, b = t.index("<!-- axioms -->"), t.index("<!-- /axioms -->")
    open("/verif/DESIGN.md", "w").write(t[:a] + "<!-- axioms -->\n" + "\n".join(lines) + "\n" + t[b:])
