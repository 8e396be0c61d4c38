#!/usr/bin/env python3
"""Regenerate MANIFEST.json from the theorem names in lean/Verif/Props and the notes below."""
import json, pathlib, re
root = pathlib.Path(__file__).resolve().parent.parent
notes = json.loads((root / "tools" / "notes.json").read_text())
props = [json.loads(l)["id"] for l in (root / "properties.jsonl").read_text().splitlines() if l.strip()]
thms = {p: [] for p in props}
for f in sorted((root / "lean/Verif/Props").glob("*.lean")):
    ns = "Sqlf.Props"
    for m in re.finditer(r"^theorem ((C\d\d+)_\w+)", f.read_text(), re.M):
        thms[m.group(2)].append(f"{ns}.{m.group(1)}")
claims = []
for p in props:
    t = thms[p]
    if not t:
        continue
    partial = any(x.endswith("_partial") or x.endswith("_counterexample") for x in t)
    claims.append({"property": p, "status": "partial" if partial else "proved",
                   "theorems": t, "note": notes.get(p, "")})
(root / "MANIFEST.json").write_text(json.dumps({"claims": claims}, indent=1) + "\n")
print(len(claims), "claims;", "missing:", [p for p in props if not thms[p]])
