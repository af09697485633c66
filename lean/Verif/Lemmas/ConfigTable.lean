import Verif.Lemmas.Config
/-!
# The table of parameter names
-/
namespace HBT
open HBT.Model HBT.Spec
variable {R : Type}

theorem word_entry (wide : Nat) (rd : List Char → R → R) : ∀ p ∈ wordParams (R := R), ∀ e ∈ entries wide rd, ∀ t c,
    p.2 (e.2 t c) = if e.1 = p.1 then readWord t (p.2 c) else p.2 c := by
  intro p hp e he t c
  simp only [wordParams, List.mem_cons, List.not_mem_nil, or_false] at hp
  simp only [entries, List.mem_cons, List.not_mem_nil, or_false] at he
  rcases hp with rfl | rfl | rfl | rfl | rfl | rfl <;>
  rcases he with rfl | rfl | rfl | rfl | rfl | rfl | rfl | rfl | rfl | rfl | rfl | rfl | rfl | rfl | rfl | rfl | rfl | rfl | rfl |
    rfl | rfl | rfl | rfl | rfl | rfl | rfl | rfl | rfl | rfl | rfl | rfl | rfl | rfl | rfl <;> rfl

set_option maxHeartbeats 2000000 in
theorem int_entry (wide : Nat) (rd : List Char → R → R) : ∀ p ∈ intParams (R := R) wide, ∀ e ∈ entries wide rd, ∀ t c,
    p.2.2 (e.2 t c) = if e.1 = p.1 then readInt 10 p.2.1 t (p.2.2 c) else p.2.2 c := by
  intro p hp e he t c
  simp only [intParams, List.mem_cons, List.not_mem_nil, or_false] at hp
  simp only [entries, List.mem_cons, List.not_mem_nil, or_false] at he
  rcases hp with rfl | rfl | rfl | rfl | rfl | rfl | rfl <;>
  rcases he with rfl | rfl | rfl | rfl | rfl | rfl | rfl | rfl | rfl | rfl | rfl | rfl | rfl | rfl | rfl | rfl | rfl | rfl | rfl |
    rfl | rfl | rfl | rfl | rfl | rfl | rfl | rfl | rfl | rfl | rfl | rfl | rfl | rfl | rfl <;> rfl

set_option maxHeartbeats 2000000 in
theorem switch_entry (wide : Nat) (rd : List Char → R → R) : ∀ p ∈ switchParams (R := R), ∀ e ∈ entries wide rd, ∀ t c,
    p.2 (e.2 t c) = if e.1 = p.1 then readBool t (p.2 c) else p.2 c := by
  intro p hp e he t c
  simp only [switchParams, List.mem_cons, List.not_mem_nil, or_false] at hp
  simp only [entries, List.mem_cons, List.not_mem_nil, or_false] at he
  rcases hp with rfl | rfl | rfl | rfl | rfl | rfl | rfl <;>
  rcases he with rfl | rfl | rfl | rfl | rfl | rfl | rfl | rfl | rfl | rfl | rfl | rfl | rfl | rfl | rfl | rfl | rfl | rfl | rfl |
    rfl | rfl | rfl | rfl | rfl | rfl | rfl | rfl | rfl | rfl | rfl | rfl | rfl | rfl | rfl <;> rfl

set_option maxHeartbeats 2000000 in
theorem real_entry (wide : Nat) (rd : List Char → R → R) : ∀ p ∈ realParams (R := R), ∀ e ∈ entries wide rd, ∀ t c,
    p.2 (e.2 t c) = if e.1 = p.1 then rd t (p.2 c) else p.2 c := by
  intro p hp e he t c
  simp only [realParams, List.mem_cons, List.not_mem_nil, or_false] at hp
  simp only [entries, List.mem_cons, List.not_mem_nil, or_false] at he
  rcases hp with rfl | rfl | rfl | rfl | rfl | rfl | rfl | rfl | rfl | rfl | rfl <;>
  rcases he with rfl | rfl | rfl | rfl | rfl | rfl | rfl | rfl | rfl | rfl | rfl | rfl | rfl | rfl | rfl | rfl | rfl | rfl | rfl |
    rfl | rfl | rfl | rfl | rfl | rfl | rfl | rfl | rfl | rfl | rfl | rfl | rfl | rfl | rfl <;> rfl

end HBT
