#!/usr/bin/env python3
"""Write lean/Verif/Proofs/PointGroupOps.lean: for each of the 32 point groups the codes of its operations,
ordered so that every code after the generators is a generator times an earlier one.  Only a hint: the
properties of the lists are checked by the Lean kernel."""
import re
src = open('lean/Verif/Data/PointGroup.lean').read()
gens = {}
for m in re.finditer(r'\((\d+), \[([\d, ]+)\]\)', src.split('pgNumToGeneratorMatrices')[1]):
    gens[int(m[1])] = [int(x) for x in m[2].split(',')]
def dec(c):
    d = []
    for _ in range(9):
        d.append(c % 3 - 1); c //= 3
    d = d[::-1]
    return [d[0:3], d[3:6], d[6:9]]
def enc(m):
    c = 0
    for r in m:
        for e in r:
            assert -1 <= e <= 1
            c = c * 3 + e + 1
    return c
def mul(a, b):
    a, b = dec(a), dec(b)
    return enc([[sum(a[i][k] * b[k][j] for k in range(3)) for j in range(3)] for i in range(3)])
out = ["import Mathlib.Data.Nat.Notation", "",
"/-! # Operations of the 32 point groups, as codes", "",
"GENERATED by gen_pgops.py from the generator table; a hint for the proofs only.  Each code after the",
"generators is a generator times an earlier code. -/", "", "namespace CrystSymm", "",
"/-- point-group number, generator codes, operation codes. -/",
"def pgCodes : List (ℕ × List ℕ × List ℕ) := ["]
rows = []
for n in sorted(gens):
    g = gens[n]
    seen = []
    for x in g:
        if x not in seen: seen.append(x)
    i = 0
    while i < len(seen):
        for y in g:
            p = mul(y, seen[i])
            if p not in seen: seen.append(p)
        i += 1
    rows.append(f"  ({n}, {g}, {seen})")
out.append(",\n".join(rows) + "]")
out += ["", "end CrystSymm", ""]
open('lean/Verif/Proofs/PointGroupOps.lean', 'w').write("\n".join(out))
