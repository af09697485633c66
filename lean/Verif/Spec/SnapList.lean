import Mathlib.Data.List.Defs
import Mathlib.Order.Basic
/-!
# What a list of snapshots should be (C73)
-/
namespace HBT.Spec

/-- `l` has one entry for each key that occurs in `src`, and each of its entries is one of those. -/
structure OneOfEach {α β : Type} (key : α → β) (src l : List α) : Prop where
  from_ : ∀ x ∈ l, x ∈ src
  each : ∀ x ∈ src, ∃ y ∈ l, key y = key x
  once : (l.map key).Nodup

end HBT.Spec
