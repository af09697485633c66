import Mathlib.Data.List.Basic
/-!
# The records of a snapshot split over files and particle types
-/
namespace HBT.Spec

/-- All records of a list of files with their particle types, in the order of the files, of the types
in a file and of the data of a type. A file is the list, over the types, of the announced number and
the data, if present. -/
def records {R : Type} (files : List (List (Nat × Option (List R)))) : List (Nat × R) :=
  files.flatMap (fun f => f.zipIdx.flatMap (fun t => (t.1.2.getD []).map (fun r => (t.2, r))))

/-- Every type has as many records as the header of its file announces. -/
def Announced {R : Type} (files : List (List (Nat × Option (List R)))) : Prop :=
  ∀ f ∈ files, ∀ t ∈ f, (t.2.getD []).length = t.1

end HBT.Spec
