#!/usr/bin/env python3
"""Write the table of the axioms of each claimed theorem into DESIGN.md.  Run after `lake build`."""
import json, re, subprocess, pathlib, tempfile

root = pathlib.Path(__file__).resolve().parent.parent
claims = json.load(open(root / "MANIFEST.json"))["claims"]
names = [t for c in claims for t in c["theorems"]]
with tempfile.NamedTemporaryFile("w", suffix=".lean", delete=False) as f:
    f.write("import Verif\n" + "".join(f"#print axioms {n}\n" for n in names))
out = subprocess.run(["lake", "env", "lean", f.name], cwd=root / "lean", capture_output=True, text=True).stdout
groups = {}
for m in re.finditer(r"'([^']+)' (?:depends on axioms: \[([^\]]*)\]|does not depend on any axioms)", out):
    key = ", ".join(sorted(a.strip() for a in (m.group(2) or "").split(",") if a.strip())) or "none"
    groups.setdefault(key, []).append(m.group(1).removeprefix("Mercurio."))
assert sum(map(len, groups.values())) == len(names), (len(names), out[-2000:])
lines = ["| Axioms | Theorems |", "|---|---|"]
for key in sorted(groups, key=lambda k: (k != "none", k.count(","), k)):
    lines.append(f"| {key} | {', '.join(f'`{n}`' for n in groups[key])} |")
p = root / "DESIGN.md"
text = p.read_text()
a, b = "<!-- axioms:begin -->", "<!-- axioms:end -->"
i, j = text.index(a) + len(a), text.index(b)
p.write_text(text[:i] + "\n" + "\n".join(lines) + "\n" + text[j:])
print({k: len(v) for k, v in groups.items()})
