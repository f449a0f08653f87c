import Verif.Props.Pipeline
import Verif.Props.OpSearch
import Verif.Props.Identify
import Verif.Props.Generators

set_option autoImplicit false
set_option linter.unusedSectionVars false

/-! # C53: the reported space group accounts for the symmetries of the standard primitive cell -/

namespace CrystSymm

open Spec SymmetryAnalyzer

theorem ofOption_eq_ret {α : Type} {msg : String} {o : Option α} {a : α} (h : Outcome.ofOption msg o = .ret a) :
    o = some a := by
  cases o with
  | none => simp [Outcome.ofOption] at h
  | some b => simp only [Outcome.ofOption, Outcome.ret.injEq] at h; rw [h]

/-- `x` is within `a` of an integer after moving it by less than `b`. -/
theorem nearInt_add {x y a b : ℝ} (h : NearInt x a) (hd : ∃ n : ℤ, |y - x - n| < b) : NearInt y (a + b) := by
  obtain ⟨m, hm⟩ := h
  obtain ⟨n, hn⟩ := hd
  refine ⟨m + n, ?_⟩
  push_cast
  rw [abs_lt] at *
  constructor <;> linarith [hm.1, hm.2, hn.1, hn.2]

/-- **C53.** Whenever `get_space_group_info` returns: the number belongs to the lattice system of the Bravais type of
the reduced cell and comes with its own symbol; and if the sites of the standard primitive structure are separated,
every rotation of the holohedry with a translation that maps that structure exactly onto itself occurs in the table of
the reported group, with a translation that agrees up to a lattice vector and the tolerance. -/
theorem C53_reported_group (sa : SymmetryAnalyzer ℝ) (h : HashOrders ℝ) (hv : h.Valid) (fuel : ℕ) (s : Structure ℝ)
    (num : ℕ) (sym : String) (ops : List (SymmOp ℝ)) (hr : sa.getSpaceGroupInfo h fuel s = .ret (num, sym, ops)) :
    ∃ (prim nig stdPrim : Structure ℝ) (ch : ℕ) (bravais : BravaisType) (sys : LatticeSystem) (n : ℕ)
      (codes : List ℕ) (table : List (SymmOp ℝ)),
      sa.reducer.findPrimitiveCell h.minEle s = .ret prim ∧ sa.reducer.niggliReduce prim tol1em5 = .ret nig ∧
      getLatticeCharacter nig tol1em5 = .ret ch ∧ amapGet? latticeCharToBravais ch = some bravais ∧
      bravais.latticeSystem? = some sys ∧ num ∈ systemNumbers sys ∧ amapGet? sgNumToSymbol num = some sym ∧
      IsTableEntry sys n num codes ∧ TableOps num codes table ∧
      sa.getStandardPrimitiveStructure h fuel s = .ret stdPrim ∧
      (Searchable stdPrim sa.dtol → ∃ pg, primitiveHolohedry (K := ℝ) h fuel bravais = .ret pg ∧
        ∀ W ∈ pg.operations, ∀ t, MapsExactly stdPrim (overK ℝ (intRot W)) t → ∃ o ∈ table, o.rotation = W ∧
          NearInt (t.x - o.translation.x) (sa.dtol / stdPrim.lattice.col0.mag + 1 / 1000000000) ∧
          NearInt (t.y - o.translation.y) (sa.dtol / stdPrim.lattice.col1.mag + 1 / 1000000000) ∧
          NearInt (t.z - o.translation.z) (sa.dtol / stdPrim.lattice.col2.mag + 1 / 1000000000)) := by
  unfold getSpaceGroupInfo at hr
  simp only [Outcome.bind_eq_ret] at hr
  obtain ⟨prim, h1, nig, h2, ⟨T, ch⟩, h3, conv, h4, ⟨P, bravais⟩, h5, sp, h6, gens, h7, sg, h8, system, h9, ident, h10,
    ⟨num', sym'⟩, h11, invP, -, invT, -, ops', -, hfin⟩ := hr
  simp only [Outcome.ret.injEq, Prod.mk.injEq] at hfin
  obtain ⟨rfl, rfl, rfl⟩ := hfin
  simp only at h4 h5 h6 h7 h8 h9
  have hid := ofOption_eq_ret h11
  subst hid
  obtain ⟨-, -, hsym, hsys, codes, table, hent, htab, hall⟩ := C40_identification_sound h hv sg system _ num' sym' h10
  have hch : getLatticeCharacter nig tol1em5 = .ret ch := by
    unfold conventionalTransformationMatrix at h3
    simp only [Outcome.bind_eq_ret, Outcome.ret.injEq, Prod.mk.injEq] at h3
    obtain ⟨ch', h3, -, -, -, rfl⟩ := h3
    exact h3
  have hbr : amapGet? latticeCharToBravais ch = some bravais := by
    unfold primitiveTransformationMatrix at h5
    simp only [Outcome.bind_eq_ret, Outcome.ret.injEq, Prod.mk.injEq] at h5
    obtain ⟨b, h5, -, -, -, -, -, rfl⟩ := h5
    exact ofOption_eq_ret h5
  refine ⟨prim, nig, sp, ch, bravais, system, _, codes, table, h1, h2, hch, hbr, ofOption_eq_ret h9, hsys, hsym, hent,
    htab, ?_, ?_⟩
  · unfold getStandardPrimitiveStructure
    rw [h1, Outcome.ret_bind, h2, Outcome.ret_bind, h3, Outcome.ret_bind]
    simp only
    rw [h4, Outcome.ret_bind, h5, Outcome.ret_bind]
    exact h6
  · intro hs
    obtain ⟨pg, hpg, hf⟩ := C45_symmetries_are_found sa h hv fuel sp bravais gens hs h7
    refine ⟨pg, hpg, fun W hW t ht => ?_⟩
    obtain ⟨o, ho, hrot, w, d, ⟨i, j, k, rfl⟩, htr, -, dx, dy, dz⟩ := hf W hW t ht
    have hosg : o ∈ sg := (C37_contains_generators_partial fuel gens sg _ h8).1.subset ho
    obtain ⟨q, hq, hrq, nx, ny, nz⟩ := hall o hosg
    refine ⟨q, hq, by rw [← hrq, hrot], ?_, ?_, ?_⟩
    · refine nearInt_add nx ⟨-i, ?_⟩
      rw [htr]
      simp only [Vec3.add_x]
      rw [show t.x - q.translation.x - (t.x + (i : ℝ) + d.x - q.translation.x) - ((-i : ℤ) : ℝ) = -d.x by push_cast; ring,
        abs_neg]
      exact dx
    · refine nearInt_add ny ⟨-j, ?_⟩
      rw [htr]
      simp only [Vec3.add_y]
      rw [show t.y - q.translation.y - (t.y + (j : ℝ) + d.y - q.translation.y) - ((-j : ℤ) : ℝ) = -d.y by push_cast; ring,
        abs_neg]
      exact dy
    · refine nearInt_add nz ⟨-k, ?_⟩
      rw [htr]
      simp only [Vec3.add_z]
      rw [show t.z - q.translation.z - (t.z + (k : ℝ) + d.z - q.translation.z) - ((-k : ℤ) : ℝ) = -d.z by push_cast; ring,
        abs_neg]
      exact dz

end CrystSymm
