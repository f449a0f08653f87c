#!/usr/bin/env python3
"""Writes lean/Verif/Proofs/SpaceGroupGens.lean: for every table group a few of its operations that generate it.
The Lean proofs check these; nothing is trusted."""
import re, os, itertools
HERE = os.path.dirname(os.path.abspath(__file__))
src = open(os.path.join(HERE, "lean/Verif/Data/SpaceGroup.lean")).read()
TW = [0, 2, 3, 4, 6, 8, 9, 10]
def dec(c):
    r, t = c % 19683, c // 19683
    m = []
    for _ in range(9):
        m.append(r % 3 - 1); r //= 3
    m = tuple(m[::-1])
    return m, (TW[t // 64 % 8], TW[t // 8 % 8], TW[t % 8])
def mul(a, b):
    (m, t), (n, s) = a, b
    return (tuple(sum(m[3*i+k]*n[3*k+j] for k in range(3)) for i in range(3) for j in range(3)),
            tuple((sum(m[3*i+k]*s[k] for k in range(3)) + t[i]) % 12 for i in range(3)))
groups = []
for m in re.finditer(r"def sgTable(\w+?)(\d+) : List \(Nat × List Nat\) := \[(.*?)\]\n\n", src + "\n\n", re.S):
    for g in re.finditer(r"\((\d+), \[([\d,\s]*)\]\)", m.group(3) + "]"):
        groups.append((int(g.group(1)), [int(x) for x in g.group(2).replace("\n", " ").split(",")]))
def closure(gens):
    acc = list(gens); q = list(gens)
    while q:
        x = q.pop(0)
        for g in gens:
            y = mul(g, x)
            if y not in acc:
                acc.append(y); q.append(y)
    return acc
out = []
if __name__ == "__main__":
    groups.sort()
    assert [g[0] for g in groups] == list(range(1, 231)), len(groups)
    for num, codes in groups:
        ops = [dec(c) for c in codes]
        best = None
        for k in range(1, 6):
            for comb in itertools.combinations(range(len(ops)), k):
                if len(closure([ops[i] for i in comb])) == len(ops) if k < 3 or len(ops) < 20 else len(closure([ops[i] for i in comb])) == len(ops):
                    best = comb; break
            if best: break
        assert best is not None, num
        assert set(closure([ops[i] for i in best])) == set(ops), num
        out.append((num, [codes[i] for i in best]))
    with open(os.path.join(HERE, "lean/Verif/Proofs/SpaceGroupGens.lean"), "w") as f:
        f.write("/-! # Generators of the tabulated space groups\n\nGENERATED by gen_sggens.py; checked, not trusted. -/\n\n"
                "set_option autoImplicit false\n\nnamespace CrystSymm\n\n"
                "/-- space-group number ↦ codes of some operations that generate it. -/\n"
                "def sgGens : List (Nat × List Nat) := [\n")
        f.write(",\n".join("  (%d, [%s])" % (n, ", ".join(map(str, c))) for n, c in out))
        f.write("]\n\nend CrystSymm\n")
    print(len(out), max(len(c) for _, c in out))
