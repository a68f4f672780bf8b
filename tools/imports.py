#!/usr/bin/env python3
"""Regenerate lean/Verif.lean from the modules under lean/Verif."""
import glob, os
root = os.path.join(os.path.dirname(os.path.dirname(os.path.abspath(__file__))), "lean")
mods = sorted(os.path.relpath(f, root)[:-5].replace("/", ".") for f in glob.glob(root + "/Verif/**/*.lean", recursive=True))
open(root + "/Verif.lean", "w").write("".join("import %s\n" % m for m in mods))
