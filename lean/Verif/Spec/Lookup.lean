/-!
# Specification vocabulary: lookup tables
-/
namespace HBT.Spec

/-- `r` is a correct answer to looking up `key` among the stored (key, value) pairs: the value of
some pair with that key if there is one, the null value otherwise. -/
def LookupAnswer (pairs : List (Int × Int)) (null key r : Int) : Prop :=
  (key, r) ∈ pairs ∨ ((∀ v, (key, v) ∉ pairs) ∧ r = null)

/-- No key is stored twice. -/
def DistinctKeys (pairs : List (Int × Int)) : Prop := (pairs.map Prod.fst).Nodup

end HBT.Spec
