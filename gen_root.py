#!/usr/bin/env python3
"""Writes lean/Verif.lean importing every module."""
import glob, os
os.chdir(os.path.join(os.path.dirname(os.path.abspath(__file__)), "lean"))
mods = []
for d in ["Model", "Data", "Tests", "Spec", "Proofs", "Props"]:
    for f in sorted(glob.glob(f"Verif/{d}/**/*.lean", recursive=True)):
        mods.append(f[:-5].replace("/", "."))
open("Verif.lean", "w").write("".join(f"import {m}\n" for m in mods))
