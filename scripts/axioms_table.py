#!/usr/bin/env python3
"""Writes AXIOMS.md from the output of axioms.sh (standard input)."""
import re, sys, os
groups = {}
for m in re.finditer(r"'([\w.]+)' (?:depends on axioms: \[([^\]]*)\]|does not depend on any axioms)", sys.stdin.read()):
    key = ", ".join(sorted(x.strip() for x in (m[2] or "").split(",") if x.strip())) or "none"
    groups.setdefault(key, []).append(m[1])
with open(os.path.join(os.path.dirname(__file__), "..", "AXIOMS.md"), "w") as f:
    f.write("# Axioms of the theorems in MANIFEST.json\n\nGenerated by `sh scripts/axioms.sh | python3 scripts/axioms_table.py`.\n")
    for k in sorted(groups):
        f.write(f"\n## {k}\n\n")
        for t in sorted(groups[k]): f.write(f"* `{t}`\n")
print({k: len(v) for k, v in groups.items()})
