#!/usr/bin/env python3
"""Regenerate MANIFEST.json and lean/Verif/Axioms.lean from the theorems in lean/Verif/Props.

A theorem named C04_foo or C08_C09_foo is listed under C04, or under C08 and C09.
Status and notes come from tools/notes.json: {"C03": {"status": "partial", "note": "..."}}.
"""
import json, pathlib, re
root = pathlib.Path(__file__).resolve().parent.parent
notes = json.loads((root / "tools/notes.json").read_text())
claims, mods, names = {}, [], []
for f in sorted((root / "lean/Verif/Props").glob("*.lean")):
    mods.append("Verif.Props." + f.stem)
    text = f.read_text()
    for m in re.finditer(r"^theorem ((?:C\d\d+_)+\w+)", text, re.M):
        ns = re.findall(r"^namespace (\S+)", text[:m.start()], re.M)[-1]
        full = f"{ns}.{m.group(1)}"
        names.append(full)
        for c in re.findall(r"C\d\d+", m.group(1)):
            claims.setdefault(c, []).append(full)
out = []
props = [json.loads(l)["id"] for l in (root / "properties.jsonl").read_text().splitlines() if l.strip()]
for c in props:
    n = notes.get(c, {})
    if c not in claims and n.get("status") != "not_applicable":
        continue
    th = claims.get(c, [])
    status = n.get("status") or ("partial" if any(t.endswith("_partial") for t in th) else "proved")
    out.append({"property": c, "status": status, "theorems": th, "note": n.get("note", "")})
(root / "MANIFEST.json").write_text('{"claims": [\n' + ",\n".join(" " + json.dumps(o, ensure_ascii=False) for o in out) + "\n]}\n")
ax = "".join(f"import {m}\n" for m in mods)
ax += "\n/-! Axioms used by every property theorem; generated by tools/manifest.py. -/\n\n"
ax += "".join(f"#print axioms {n}\n" for n in names)
(root / "lean/Verif/Axioms.lean").write_text(ax)
missing = [c for c in props if c not in {o["property"] for o in out}]
print(len(out), "claims;", len(names), "theorems; missing:", " ".join(missing))
