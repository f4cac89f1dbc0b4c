#!/usr/bin/env python3
"""Write section 5 of DESIGN.md from the comments of the theorems that refute a property."""
import glob, re
rows = []
for f in sorted(glob.glob("/verif/lean/Verif/Props/*.lean")):
    for m in re.finditer(r"/--((?:(?!-/).)*)-/\s*(?:theorem|lemma)\s+(C\d+_\w+)", open(f).read(), re.S):
        if "_false" in m.group(2) or m.group(2) in ("C60_crash", "C60_number"):
            rows.append((m.group(2), " ".join(m.group(1).split()).replace("|", "\\|")))
rows.sort(key=lambda r: (int(r[0][1:r[0].index("_")]), r[0]))
body = "| theorem | what happens (comment of the theorem) |\n|---|---|\n" + "".join(f"| `{n}` | {c} |\n" for n, c in rows)
t = open("/verif/DESIGN.md").read()
a, b = t.index("<!-- false -->"), t.index("<!-- /false -->")
open("/verif/DESIGN.md", "w").write(t[:a] + "<!-- false -->\n" + body + t[b:])
print(len(rows))
