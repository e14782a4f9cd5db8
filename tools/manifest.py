#!/usr/bin/env python3
"""Regenerate MANIFEST.json: collects the theorems named cNN_* from lean/Verif/Props and attaches the
status and note kept in tools/status.json."""
import json, pathlib, re
root = pathlib.Path(__file__).resolve().parent.parent
status = json.loads((root / "tools/status.json").read_text())
ths = {}
for f in sorted((root / "lean/Verif/Props").rglob("*.lean")):
    ns = []
    for line in f.read_text().splitlines():
        m = re.match(r"namespace (\S+)", line)
        if m:
            ns.append(m.group(1))
        m = re.match(r"end (\S+)\s*$", line)
        if m and ns and ns[-1] == m.group(1):
            ns.pop()
        m = re.match(r"theorem ((c\d\d+)_[^\s({\[:]*)", line)
        if m:
            ths.setdefault(m.group(2).upper(), []).append(".".join(ns + [m.group(1)]))
claims = []
for line in (root / "properties.jsonl").read_text().splitlines():
    pid = json.loads(line)["id"]
    st = status.get(pid)
    if st is None or (not ths.get(pid) and st[0] != "not_applicable"):
        continue
    claims.append({"property": pid, "status": st[0], "theorems": ths.get(pid, []), "note": st[1]})
(root / "MANIFEST.json").write_text(json.dumps({"claims": claims}, indent=1) + "\n")
missing = [json.loads(l)["id"] for l in (root / "properties.jsonl").read_text().splitlines()
           if json.loads(l)["id"] not in {c["property"] for c in claims}]
print("claims:", len(claims), "missing:", missing, "unlisted theorems:", sorted(set(ths) - {c["property"] for c in claims}))
