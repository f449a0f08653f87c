#!/usr/bin/env python3
"""Generates lean/Verif/Data/*.lean from the lookup tables in /repo/src/data (literal copies).
Usage: python3 gen_tables.py /repo /verif/lean/Verif/Data"""
import re, sys
repo, out = sys.argv[1], sys.argv[2]

def lineno(src, pos): return src.count('\n', 0, pos) + 1

core = open(repo + '/src/data/core.rs').read()
pg = open(repo + '/src/data/pointgroup.rs').read()
sg = open(repo + '/src/data/spacegroup.rs').read()

# ---------------------------------------------------------------- core.rs
i0 = core.index('LATTICE_CHAR_TO_BRAVAIS'); i1 = core.index('LATTICE_CHAR_TO_CONV_TRANS'); i2 = core.index('CENTERING_TO_PRIM_TRANS')
brav = re.findall(r'\((\d+), BravaisType::(\w+)\)', core[i0:i1])
conv = re.findall(r'\((\d+), Matrix3::(identity\(\)|new\([-\d, ]*\))\)', core[i1:i2])
prim = re.findall(r'Centering::(\w),\s*Matrix4::(identity\(\)|new\([-\d, ]*\))', core[i2:])
assert len(brav) == 44 and len(conv) == 44 and len(prim) == 7
def ints(s): return [int(x) for x in s[4:-1].split(',')]
L = []
L.append('import Verif.Model.Core\n')
L.append('/-! # Tables of src/data/core.rs\n\nGENERATED by gen_tables.py; literal copies, in source order. -/\n')
L.append('namespace CrystSymm\n')
L.append(f'/-- `LATTICE_CHAR_TO_BRAVAIS` (src/data/core.rs:{lineno(core,i0)}-{lineno(core,i1)-3}). -/')
L.append('def latticeCharToBravais : List (Nat × BravaisType) := [')
L.append(',\n'.join(f'  ({a}, .{b})' for a, b in brav) + ']\n')
L.append(f'/-- `LATTICE_CHAR_TO_CONV_TRANS` (src/data/core.rs:{lineno(core,i1)}-{lineno(core,i2)-3}); `Matrix3::new` takes its\narguments row by row. -/')
L.append('def latticeCharToConvTrans : List (Nat × Mat3 Int8) := [')
rows = []
for a, b in conv:
    v = [1,0,0,0,1,0,0,0,1] if b.startswith('id') else ints(b)
    rows.append(f'  ({a}, ⟨' + ', '.join(map(str, v)) + '⟩)')
L.append(',\n'.join(rows) + ']\n')
L.append(f'/-- `CENTERING_TO_PRIM_TRANS` (src/data/core.rs:{lineno(core,i2)}-303): the upper-left 3×3 block of the\n`Matrix4<isize>` and its `m44` entry; the remaining entries are 0 in the source and never read. -/')
L.append('def centeringToPrimTrans : List (Centering × Mat3 Int × Int) := [')
rows = []
for a, b in prim:
    v = [1,0,0,0,0,1,0,0,0,0,1,0,0,0,0,1] if b.startswith('id') else ints(b)
    assert v[3] == v[7] == v[11] == v[12] == v[13] == v[14] == 0
    m = v[0:3] + v[4:7] + v[8:11]
    rows.append(f'  (.{a}, ⟨' + ', '.join(map(str, m)) + f'⟩, {v[15]})')
L.append(',\n'.join(rows) + ']\n')
L.append('end CrystSymm')
open(out + '/Core.lean', 'w').write('\n'.join(L) + '\n')

# ---------------------------------------------------------------- pointgroup.rs
j0 = pg.index('PG_NUM_TO_SYMBOL'); j1 = pg.index('BRAVAIS_TO_HOLOHEDRY_NUM'); j2 = pg.index('PG_NUM_TO_GENERATOR_MATRICES')
syms = re.findall(r'\((\d+), "([^"]*)"\)', pg[j0:j1])
hol = re.findall(r'BravaisType::(\w+), (\d+)\)', pg[j1:j2])
gens = re.findall(r'\((\d+), Vec::from\(\[([\d, ]*)\]\)\)', pg[j2:])
assert len(syms) == 32 and len(hol) == 15 and len(gens) == 32
L = ['import Verif.Model.Core\n', '/-! # Tables of src/data/pointgroup.rs\n\nGENERATED by gen_tables.py; literal copies, in source order. -/\n', 'namespace CrystSymm\n']
L.append(f'/-- `PG_NUM_TO_SYMBOL` (src/data/pointgroup.rs:{lineno(pg,j0)}-42). -/')
L.append('def pgNumToSymbol : List (Nat × String) := [\n' + ',\n'.join(f'  ({a}, "{b}")' for a, b in syms) + ']\n')
L.append(f'/-- `BRAVAIS_TO_HOLOHEDRY_NUM` (src/data/pointgroup.rs:{lineno(pg,j1)}-63). -/')
L.append('def bravaisToHolohedryNum : List (BravaisType × Nat) := [\n' + ',\n'.join(f'  (.{a}, {b})' for a, b in hol) + ']\n')
L.append(f'/-- `PG_NUM_TO_GENERATOR_MATRICES` (src/data/pointgroup.rs:{lineno(pg,j2)}-101). -/')
L.append('def pgNumToGeneratorMatrices : List (Nat × List Nat) := [\n' + ',\n'.join(f'  ({a}, [{b}])' for a, b in gens) + ']\n')
L.append('end CrystSymm')
open(out + '/PointGroup.lean', 'w').write('\n'.join(L) + '\n')

# ---------------------------------------------------------------- spacegroup.rs
k0 = sg.index('SG_NUM_TO_SYMBOL'); k1 = sg.index('SG_NUM_TO_FULL_MATRICES')
syms = re.findall(r'\((\d+), "([^"]*)"\)', sg[k0:k1])
assert len(syms) == 230
tab = []
for line in sg[k1:].split('\n'):
    m = re.match(r'\s*\(LatticeSystem::(\w+),', line)
    if m: tab.append((m.group(1), [])); continue
    m = re.match(r'\s*\((\d+), Vec::from\(\[(.*)\]\)\),', line)
    if m: tab[-1][1][-1][1].append((int(m.group(1)), [int(x) for x in m.group(2).split(',')])); continue
    m = re.match(r'\s*\((\d+),\s*$', line)
    if m: tab[-1][1].append((int(m.group(1)), [])); continue
assert sum(len(g) for _, os in tab for _, g in os) == 230
assert len(re.findall(r'Vec::from', sg[k1:])) == 230
L = ['import Verif.Model.Core\n', '/-! # Tables of src/data/spacegroup.rs\n\nGENERATED by gen_tables.py; literal copies, in source order. -/\n', 'namespace CrystSymm\n']
L.append(f'/-- `SG_NUM_TO_SYMBOL` (src/data/spacegroup.rs:{lineno(sg,k0)}-240). -/')
L.append('def sgNumToSymbol : List (Nat × String) := [\n' + ',\n'.join(f'  ({a}, "{b}")' for a, b in syms) + ']\n')
def wrap(xs):
    s = ', '.join(map(str, xs)); o = ''; col = 0
    for w in s.split(' '):
        if col + len(w) > 88: o += '\n      '; col = 6
        o += w + ' '; col += len(w) + 1
    return o.strip()
for ls, os in tab:
    for order, groups in os:
        L.append(f'/-- entry `({ls}, {order})` of `SG_NUM_TO_FULL_MATRICES` (src/data/spacegroup.rs:{lineno(sg,k1)}-580). -/')
        L.append(f'def sgTable{ls}{order} : List (Nat × List Nat) := [\n' + ',\n'.join(f'  ({n}, [{wrap(v)}])' for n, v in groups) + ']\n')
L.append(f'/-- `SG_NUM_TO_FULL_MATRICES` (src/data/spacegroup.rs:{lineno(sg,k1)}-580): lattice system ↦ number of operations ↦\nspace-group number ↦ encoded operations. -/')
L.append('def sgNumToFullMatrices : List (LatticeSystem × List (Nat × List (Nat × List Nat))) := [\n' + ',\n'.join(
   f'  (.{ls}, [' + ', '.join(f'({o}, sgTable{ls}{o})' for o, _ in os) + '])' for ls, os in tab) + ']\n')
L.append('end CrystSymm')
open(out + '/SpaceGroup.lean', 'w').write('\n'.join(L) + '\n')
