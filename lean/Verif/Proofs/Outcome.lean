import Verif.Model.Scalar

set_option autoImplicit false

/-! # Sequencing of outcomes -/

namespace CrystSymm

theorem Outcome.bind_eq_ret {α β : Type} {o : Outcome α} {f : α → Outcome β} {b : β} :
    o.bind f = .ret b ↔ ∃ a, o = .ret a ∧ f a = .ret b := by
  cases o <;> simp [Outcome.bind]

theorem Outcome.bind_eq_panic {α β : Type} {o : Outcome α} {f : α → Outcome β} {m : String} :
    o.bind f = .panic m ↔ o = .panic m ∨ ∃ a, o = .ret a ∧ f a = .panic m := by
  cases o <;> simp [Outcome.bind]

theorem Outcome.bind_eq_running {α β : Type} {o : Outcome α} {f : α → Outcome β} :
    o.bind f = .running ↔ o = .running ∨ ∃ a, o = .ret a ∧ f a = .running := by
  cases o <;> simp [Outcome.bind]

@[simp] theorem Outcome.ret_bind {α β : Type} (a : α) (f : α → Outcome β) :
    (Outcome.ret a).bind f = f a := rfl

end CrystSymm
