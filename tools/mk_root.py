"""Write lean/Verif.lean: one import per module under lean/Verif."""
import pathlib
root = pathlib.Path(__file__).resolve().parent.parent / "lean"
order = {"Model": 0, "Spec": 1, "Lemmas": 2, "Props": 3}
mods = sorted((p.relative_to(root).with_suffix("") for p in (root / "Verif").rglob("*.lean")),
              key=lambda p: (order.get(p.parts[1], 9), str(p)))
(root / "Verif.lean").write_text("".join("import " + ".".join(m.parts) + "\n" for m in mods))
