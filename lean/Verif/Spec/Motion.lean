import Verif.Spec.Isometry

/-! # Copies of a crystal: moved, turned and reflected -/

set_option autoImplicit false

namespace CrystSymm.Spec

/-- the pairs of space groups that are mirror images of each other. -/
def enantiomorphs : List (ℕ × ℕ) :=
  [(76, 78), (91, 95), (92, 96), (144, 145), (151, 153), (152, 154), (169, 170), (171, 172), (178, 179), (180, 181), (212, 213)]

/-- the number of the mirror image of a space group. -/
def mirrorNumber (n : ℕ) : ℕ :=
  match enantiomorphs.find? fun p => p.1 == n || p.2 == n with
  | some p => if p.1 = n then p.2 else p.1
  | none => n

/-- the isometry `x ↦ Q x + t` carries the crystal `s` onto the crystal `s'`: every atom of `s` goes to an atom of the same species of
`s'`, and every atom of `s'` is reached. -/
def Carries (Q : Mat3 ℝ) (t : Vec3 ℝ) (s s' : Structure ℝ) : Prop := ∀ e x, AtomAt s e x ↔ AtomAt s' e (Q * x + t)

open Classical in
/-- the number of the space group of the copy: that of the mirror image when `Q` turns a right hand into a left hand. -/
noncomputable def copyNumber (Q : Mat3 ℝ) (n : ℕ) : ℕ := if Q.det = 1 then n else mirrorNumber n

end CrystSymm.Spec
