
set_option autoImplicit false
/-!
# `nalgebra` vectors and matrices, as used by the crate

`nalgebra` is not part of /repo; this file models the few operations of it the crate calls.
Everything is generic over the scalar type `K` and uses only the bare operation classes
(`Add`, `Mul`, …) with no laws, so the same definitions run over IEEE doubles (`Float`),
over exact rationals and over the reals.

Simplification: the order in which `nalgebra` accumulates a dot product is fixed here to
left-to-right.  This is irrelevant for exact scalars.
-/

namespace CrystSymm

/-- `nalgebra::Vector3<K>` (src/structure.rs:5, src/utils.rs:1). -/
@[ext] structure Vec3 (K : Type) where
  x : K
  y : K
  z : K
deriving DecidableEq, Repr, Inhabited

/-- `nalgebra::Matrix3<K>`; the arguments are in row-major order exactly like the arguments
of `Matrix3::new` (src/reduce.rs:238 and passim). -/
@[ext] structure Mat3 (K : Type) where
  m11 : K
  m12 : K
  m13 : K
  m21 : K
  m22 : K
  m23 : K
  m31 : K
  m32 : K
  m33 : K
deriving DecidableEq, Repr, Inhabited

namespace Vec3

variable {K L : Type}

/-- component-wise `map` (`Vector3::from_iterator(v.iter().map(f))`). -/
def map (f : K → L) (v : Vec3 K) : Vec3 L := ⟨f v.x, f v.y, f v.z⟩

instance [Add K] : Add (Vec3 K) := ⟨fun u v => ⟨u.x + v.x, u.y + v.y, u.z + v.z⟩⟩
instance [Sub K] : Sub (Vec3 K) := ⟨fun u v => ⟨u.x - v.x, u.y - v.y, u.z - v.z⟩⟩
instance [Neg K] : Neg (Vec3 K) := ⟨fun u => ⟨-u.x, -u.y, -u.z⟩⟩
instance [Zero K] : Zero (Vec3 K) := ⟨⟨0, 0, 0⟩⟩

/-- `s * v` / `v * s` for a scalar. -/
def scale [Mul K] (s : K) (v : Vec3 K) : Vec3 K := ⟨s * v.x, s * v.y, s * v.z⟩

/-- `v / s` for a scalar. -/
def divS [Div K] (v : Vec3 K) (s : K) : Vec3 K := ⟨v.x / s, v.y / s, v.z / s⟩

/-- `u.dot(&v)`. -/
def dot [Add K] [Mul K] (u v : Vec3 K) : K := u.x * v.x + u.y * v.y + u.z * v.z

/-- `v.magnitude_squared()`. -/
def normSq [Add K] [Mul K] (v : Vec3 K) : K := v.dot v

/-- `u.cross(&v)`. -/
def cross [Sub K] [Mul K] (u v : Vec3 K) : Vec3 K :=
  ⟨u.y * v.z - u.z * v.y, u.z * v.x - u.x * v.z, u.x * v.y - u.y * v.x⟩

/-- `v.iter()`. -/
def toList (v : Vec3 K) : List K := [v.x, v.y, v.z]

end Vec3

namespace Mat3

variable {K L : Type}

/-- entry-wise `map` (`cast`, `from_iterator(m.iter().map(f))`). -/
def map (f : K → L) (m : Mat3 K) : Mat3 L :=
  ⟨f m.m11, f m.m12, f m.m13, f m.m21, f m.m22, f m.m23, f m.m31, f m.m32, f m.m33⟩

/-- `m.column(0)`. -/
def col0 (m : Mat3 K) : Vec3 K := ⟨m.m11, m.m21, m.m31⟩
/-- `m.column(1)`. -/
def col1 (m : Mat3 K) : Vec3 K := ⟨m.m12, m.m22, m.m32⟩
/-- `m.column(2)`. -/
def col2 (m : Mat3 K) : Vec3 K := ⟨m.m13, m.m23, m.m33⟩

/-- `Matrix3::from_columns(&[a, b, c])`. -/
def ofCols (a b c : Vec3 K) : Mat3 K := ⟨a.x, b.x, c.x, a.y, b.y, c.y, a.z, b.z, c.z⟩

/-- `m.transpose()`. -/
def transpose (m : Mat3 K) : Mat3 K :=
  ⟨m.m11, m.m21, m.m31, m.m12, m.m22, m.m32, m.m13, m.m23, m.m33⟩

/-- `m.iter()`: nalgebra iterates column by column. -/
def toListCM (m : Mat3 K) : List K :=
  [m.m11, m.m21, m.m31, m.m12, m.m22, m.m32, m.m13, m.m23, m.m33]

/-- `Matrix3::from_iterator(it)`: fills column by column from the first nine items and panics
(here `none`) when there are fewer; further items are ignored. -/
def ofListCM : List K → Option (Mat3 K)
  | a :: b :: c :: d :: e :: f :: g :: h :: i :: _ => some ⟨a, d, g, b, e, h, c, f, i⟩
  | _ => none

instance [Add K] [Mul K] : Mul (Mat3 K) := ⟨fun a b =>
  ⟨a.m11 * b.m11 + a.m12 * b.m21 + a.m13 * b.m31,
   a.m11 * b.m12 + a.m12 * b.m22 + a.m13 * b.m32,
   a.m11 * b.m13 + a.m12 * b.m23 + a.m13 * b.m33,
   a.m21 * b.m11 + a.m22 * b.m21 + a.m23 * b.m31,
   a.m21 * b.m12 + a.m22 * b.m22 + a.m23 * b.m32,
   a.m21 * b.m13 + a.m22 * b.m23 + a.m23 * b.m33,
   a.m31 * b.m11 + a.m32 * b.m21 + a.m33 * b.m31,
   a.m31 * b.m12 + a.m32 * b.m22 + a.m33 * b.m32,
   a.m31 * b.m13 + a.m32 * b.m23 + a.m33 * b.m33⟩⟩

/-- `m * v`. -/
def mulVec [Add K] [Mul K] (m : Mat3 K) (v : Vec3 K) : Vec3 K :=
  ⟨m.m11 * v.x + m.m12 * v.y + m.m13 * v.z,
   m.m21 * v.x + m.m22 * v.y + m.m23 * v.z,
   m.m31 * v.x + m.m32 * v.y + m.m33 * v.z⟩

instance [Add K] [Mul K] : HMul (Mat3 K) (Vec3 K) (Vec3 K) := ⟨mulVec⟩

instance [Zero K] [One K] : One (Mat3 K) := ⟨⟨1, 0, 0, 0, 1, 0, 0, 0, 1⟩⟩

/-- `m * s` for a scalar. -/
def scale [Mul K] (s : K) (m : Mat3 K) : Mat3 K := m.map (fun e => e * s)

/-- `m / s` for a scalar. -/
def divS [Div K] (m : Mat3 K) (s : K) : Mat3 K := m.map (fun e => e / s)

/-- `m.determinant()` (nalgebra's closed 3×3 formula). -/
def det [Add K] [Sub K] [Mul K] (m : Mat3 K) : K :=
  m.m11 * (m.m22 * m.m33 - m.m32 * m.m23) - m.m12 * (m.m21 * m.m33 - m.m31 * m.m23)
    + m.m13 * (m.m21 * m.m32 - m.m31 * m.m22)

/-- the adjugate divided by `d`, as written out by nalgebra's `try_invert_to` for 3×3. -/
def adjDiv [Sub K] [Mul K] [Div K] (m : Mat3 K) (d : K) : Mat3 K :=
  ⟨(m.m22 * m.m33 - m.m32 * m.m23) / d, (m.m13 * m.m32 - m.m33 * m.m12) / d,
     (m.m12 * m.m23 - m.m22 * m.m13) / d,
   (m.m31 * m.m23 - m.m21 * m.m33) / d, (m.m11 * m.m33 - m.m31 * m.m13) / d,
     (m.m13 * m.m21 - m.m23 * m.m11) / d,
   (m.m21 * m.m32 - m.m31 * m.m22) / d, (m.m12 * m.m31 - m.m32 * m.m11) / d,
     (m.m11 * m.m22 - m.m21 * m.m12) / d⟩

/-- `try_invert_to(m, &mut out)` / `m.try_inverse()`: `none` exactly when the computed
determinant is zero. -/
def tryInverse [Add K] [Sub K] [Mul K] [Div K] [Zero K] [BEq K] (m : Mat3 K) : Option (Mat3 K) :=
  if m.det == 0 then none else some (m.adjDiv m.det)

end Mat3

end CrystSymm
