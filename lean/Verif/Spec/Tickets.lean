import Verif.Spec.Threads
/-!
# Regions with more than one possible result

When threads draw numbers in a critical section, the memory at the end depends on the schedule.
-/
namespace HBT.Threads
variable {L : Type} {V : L → Type} [DecidableEq L]

/-- As `Completes`, but the memory at the end is only known to have the property `Q`. -/
def CompletesTo (bad : Access L V → Access L V → Prop) (phases : List (List (Prog L V Unit))) (m : Mem L V) (Q : Mem L V → Prop) : Prop :=
  ∀ (T : Nat) (work : Fin T → List (List (Prog L V Unit))), 0 < T → Shares phases work →
    Acc (fun b a => Step a b) (⟨m, work⟩ : State L V T) ∧
    ∀ s, Steps ⟨m, work⟩ s → ¬ Meets bad s ∧ ((¬ ∃ s', Step s s') → (∀ t, s.work t = []) ∧ Q s.mem)

/-- A number is drawn from the counter at `ℓ`: its value before it is changed by `f`. -/
def draw {L : Type} {V : L → Type} (ℓ : L) (f : V ℓ → V ℓ) : Prog L V (V ℓ) := .fetch ℓ f .ret

end HBT.Threads
