#!/bin/sh
# Writes AXIOMS.md: the axioms each theorem of MANIFEST.json depends on, as Lean's kernel reports them (run after `lake build`).
cd "$(dirname "$0")/../lean" || exit 1
python3 - > /tmp/axioms_in.lean <<'P'
import json
print("import Verif")
for c in json.load(open("../MANIFEST.json"))["claims"]:
    for t in c["theorems"]:
        print("#print axioms", t)
P
lake env lean /tmp/axioms_in.lean > /tmp/axioms_out.txt 2>&1
python3 - > ../AXIOMS.md <<'P'
import re, json
out = open("/tmp/axioms_out.txt").read().replace("\n ", " ")
ax = {}
for l in out.split("\n"):
    m = re.match(r"'(\S+)' depends on axioms: \[(.*)\]", l)
    if m: ax[m.group(1)] = ", ".join(sorted(m.group(2).split(", ")))
    m = re.match(r"'(\S+)' does not depend on any axioms", l)
    if m: ax[m.group(1)] = "none"
print("# Axioms of each claimed theorem\n\nGenerated by `tools/axioms.sh` (`#print axioms`).\n\n| Property | Theorem | Axioms |\n|---|---|---|")
for c in json.load(open("../MANIFEST.json"))["claims"]:
    for t in c["theorems"]:
        print("| %s | `%s` | %s |" % (c["property"], t, ax.get(t, "MISSING")))
P
grep -c MISSING ../AXIOMS.md
