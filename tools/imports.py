#!/usr/bin/env python3
"""Write lean/Verif.lean: import every module under lean/Verif."""
import pathlib
root = pathlib.Path(__file__).resolve().parent.parent / "lean"
old = (root / "Verif.lean").read_text()
mods = sorted(".".join(p.relative_to(root).with_suffix("").parts) for p in (root / "Verif").rglob("*.lean"))
rest = [l for l in old.splitlines() if not l.startswith("import ")]
(root / "Verif.lean").write_text("\n".join([f"import {m}" for m in mods] + rest) + "\n")
