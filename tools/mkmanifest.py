#!/usr/bin/env python3
"""Writes MANIFEST.json from claims.py; the short theorem names there are resolved to full names by reading the namespaces in the sources."""
import glob, json, os, re
here = os.path.dirname(os.path.abspath(__file__))
full = {}
for f in glob.glob(os.path.join(here, "..", "lean", "Verif", "**", "*.lean"), recursive=True):
    stack = []
    for line in open(f, encoding="utf8"):
        m = re.match(r"(?:noncomputable )?(namespace|section)\b *(\S*)", line)
        if m:
            stack.append((m.group(1), m.group(2)))
            continue
        if re.match(r"end\b", line) and stack:
            stack.pop()
            continue
        m = re.match(r"(?:@\[[^\]]*\] *)?(?:private |protected )?theorem +(\S+)", line)
        if m:
            ns = [n for k, n in stack if k == "namespace"]
            full.setdefault(m.group(1), []).append(".".join(ns + [m.group(1)]))
C = {}
def c(pid, status, thms, note):
    ts = []
    for t in thms.split():
        cands = full.get(t, [])
        if len(cands) > 1:
            cands = [x for x in cands if x.startswith("Verif.Props.")] or cands
        assert len(cands) == 1, (pid, t, cands)
        ts.append(cands[0])
    C[pid] = {"property": pid, "status": status, "theorems": ts, "note": note}
exec(open(os.path.join(here, "claims.py")).read())
json.dump({"claims": [C[k] for k in sorted(C)]}, open(os.path.join(here, "..", "MANIFEST.json"), "w"), indent=1, ensure_ascii=False)
print(len(C), "claims")
