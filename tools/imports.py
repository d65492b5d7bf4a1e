"""Regenerate lean/Verif.lean: import every module under lean/Verif."""
import pathlib
root = pathlib.Path(__file__).resolve().parent.parent / "lean"
order = ["Model", "Spec", "Proofs", "Props"]
mods = []
for d in order:
    mods += sorted("Verif." + d + "." + f.stem for f in (root / "Verif" / d).glob("*.lean"))
(root / "Verif.lean").write_text("".join(f"import {m}\n" for m in mods))
