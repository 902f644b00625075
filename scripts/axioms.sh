#!/bin/sh
# Prints the axioms of every theorem named in MANIFEST.json.
cd "$(dirname "$0")/../lean" || exit 1
python3 - > /tmp/Axioms.lean <<'PY'
import json
print("import Verif")
for c in json.load(open("../MANIFEST.json"))["claims"]:
    for t in c["theorems"]: print("#print axioms", t)
PY
lake env lean /tmp/Axioms.lean
