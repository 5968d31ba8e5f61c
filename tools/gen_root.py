#!/usr/bin/env python3
"""Write lean/Verif.lean: import every module under lean/Verif."""
import os
here = os.path.dirname(os.path.abspath(__file__))
root = os.path.join(here, "..", "lean")
mods = []
for d, _, fs in os.walk(os.path.join(root, "Verif")):
    for f in fs:
        if f.endswith(".lean"):
            rel = os.path.relpath(os.path.join(d, f), root)[:-5]
            mods.append(rel.replace(os.sep, "."))
with open(os.path.join(root, "Verif.lean"), "w") as f:
    for m in sorted(mods):
        f.write("import " + m + "\n")
