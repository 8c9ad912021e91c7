#!/usr/bin/env python3
"""Regenerate MANIFEST.json from the theorem names in lean/Verif/Props and tools/notes.json."""
import json, re, pathlib
root = pathlib.Path(__file__).resolve().parent.parent
notes = json.loads((root / "tools/notes.json").read_text())
thms = {}
for f in sorted((root / "lean/Verif/Props").rglob("*.lean")):
    ns = []
    for line in f.read_text().splitlines():
        m = re.match(r"namespace (\S+)", line)
        if m: ns.append(m.group(1))
        m = re.match(r"end (\S+)", line)
        if m and ns and ns[-1] == m.group(1): ns.pop()
        m = re.match(r"theorem (C\d\d+)(_\S+)", line)
        if m: thms.setdefault(m.group(1), []).append(".".join(ns + [m.group(1) + m.group(2)]))
claims = []
for line in (root / "properties.jsonl").read_text().splitlines():
    p = json.loads(line)["id"]
    n = notes.get(p, {})
    t = thms.get(p, [])
    if not t and n.get("status") != "not_applicable": continue
    status = n.get("status") or "proved"
    claims.append({"property": p, "status": status, "theorems": t, "note": n.get("note", "")})
(root / "MANIFEST.json").write_text(json.dumps({"claims": claims}, indent=1, ensure_ascii=False) + "\n")
print(len(claims), "claims;", sum(len(c["theorems"]) for c in claims), "theorems;",
      [c["property"] for c in claims if c["status"] != "proved"])
