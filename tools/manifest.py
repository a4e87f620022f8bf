#!/usr/bin/env python3
"""Writes MANIFEST.json from tools/claims.txt.

claims.txt: one line per claim:  Cxx | status | theorem theorem ... | note
Checks that each theorem name occurs in a .lean file."""
import json, re, pathlib, sys
root = pathlib.Path(__file__).resolve().parent.parent
props = [json.loads(l)["id"] for l in (root / "properties.jsonl").read_text().splitlines() if l.strip()]
names = set()
for f in (root / "lean/Verif").rglob("*.lean"):
    ns = []
    for line in f.read_text().splitlines():
        m = re.match(r"namespace (\S+)", line)
        if m: ns.append(m.group(1)); continue
        m = re.match(r"end (\S+)", line)
        if m and ns and ns[-1] == m.group(1): ns.pop(); continue
        m = re.match(r"(?:@\[[^\]]*\] )?theorem (\S+)", line)
        if m: names.add(".".join(ns + [m.group(1)]))
claims, seen = [], set()
for l in (root / "tools/claims.txt").read_text().splitlines():
    if not l.strip() or l.startswith("#"): continue
    pid, st, th, note = [x.strip() for x in l.split("|", 3)]
    ths = ["Jess." + t for t in th.split()]
    for t in ths:
        if t not in names: print("MISSING theorem", pid, t); 
    claims.append({"property": pid, "status": st, "theorems": ths, "note": note}); seen.add(pid)
for p in props:
    if p not in seen: print("no claim for", p)
(root / "MANIFEST.json").write_text(json.dumps({"claims": claims}, indent=1, ensure_ascii=False) + "\n")
