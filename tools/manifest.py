#!/usr/bin/env python3
"""Regenerate MANIFEST.json from tools/claims.py; checks that every theorem named exists in lean/Verif/Props."""
import json, re, pathlib, sys
root = pathlib.Path(__file__).resolve().parent.parent
sys.path.insert(0, str(root / "tools"))
sys.dont_write_bytecode = True
from claims import L as claims
text = "\n".join(p.read_text() for p in (root / "lean/Verif").rglob("*.lean"))
names = set(re.findall(r"^(?:private |protected )?theorem ([A-Za-z0-9_'.]+)", text, re.M))
bad = [(c["property"], t) for c in claims for t in c["theorems"] if t.split(".")[-1] not in names]
if bad:
    sys.exit(f"unknown theorems: {bad}")
props = [json.loads(l)["id"] for l in open(root / "properties.jsonl")]
missing = [p for p in props if p not in {c["property"] for c in claims}]
json.dump({"claims": claims}, open(root / "MANIFEST.json", "w"), indent=1, ensure_ascii=False)
open(root / "MANIFEST.json", "a").write("\n")
print("claims:", len(claims), "missing:", missing)
