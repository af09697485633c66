import Verif.Model.Outcome
/-!
# Model of src/halo_particle_iterator.h

`HaloParticleIterator_t` (lines 4-53) and `HaloNestIterator_t` (lines 56-106) are the same code for
the member vectors `Particles` and `NestedSubhalos`; the model takes the haloes of the range
`[begin,end)` as a list of those member vectors. An iterator into a vector is represented by the
elements from its position to the end; equality with the end iterator is emptiness.
-/
namespace HBT.Model
variable {α : Type}

/-- Members `FirstHalo`, `CurrHalo`, `CurrPart` (src/halo_particle_iterator.h:7-8); `EndHalo` is the empty suffix. -/
structure HaloIter (α : Type) where
  firstHalo : List (List α)
  currHalo : List (List α)
  currPart : List α

/-- `reset`, src/halo_particle_iterator.h:23-28 (75-80). `currPart` keeps its old value if the range is empty. -/
def HaloIter.reset (it : HaloIter α) : HaloIter α :=
  match it.firstHalo with
  | [] => { it with currHalo := [] }
  | h :: hs => { it with currHalo := h :: hs, currPart := h }

/-- The loop skipping empty haloes in `init`, src/halo_particle_iterator.h:17-18 (69-70). -/
def skipEmpty : List (List α) → List (List α)
  | [] => []
  | h :: hs => if h.length = 0 then skipEmpty hs else h :: hs

/-- `init`, src/halo_particle_iterator.h:15-22 (67-74), on a default-constructed object. -/
def HaloIter.init (haloes : List (List α)) : HaloIter α :=
  HaloIter.reset ⟨skipEmpty haloes, [], []⟩

/-- `is_end`, src/halo_particle_iterator.h:49 (101). -/
def HaloIter.isEnd (it : HaloIter α) : Bool := it.currHalo.isEmpty

/-- `operator *`, src/halo_particle_iterator.h:45 (97). Dereferencing an end iterator is undefined. -/
def HaloIter.deref (it : HaloIter α) : Outcome α :=
  match it.currPart with
  | [] => .ub
  | p :: _ => .ok p

/-- The `while` loop of `operator ++`, src/halo_particle_iterator.h:37-42 (89-94). Arguments: `CurrHalo` (from the current
halo on) and `CurrPart`. -/
def advance : List (List α) → List α → List (List α) × List α
  | [], part => ([], part)
  | h :: hs, p :: part => (h :: hs, p :: part)
  | [_], [] => ([], [])
  | _ :: h' :: hs, [] => advance (h' :: hs) h'

/-- `operator ++`, src/halo_particle_iterator.h:34-44 (86-96). Incrementing past the end is undefined. -/
def HaloIter.next (it : HaloIter α) : Outcome (HaloIter α) :=
  match it.currPart with
  | [] => .ub
  | _ :: part =>
    let r := advance it.currHalo part
    .ok { it with currHalo := r.1, currPart := r.2 }

/-- The loop `for(it.reset(); !it.is_end(); ++it) visit(*it)` as used by callers, e.g.
src/particle_exchanger.h:127-150. `fuel` bounds the number of passes. -/
def HaloIter.walk : Nat → HaloIter α → Outcome (List α)
  | 0, _ => .diverge
  | fuel + 1, it =>
    if it.isEnd then .ok []
    else do
      let p ← it.deref
      let it ← it.next
      let ps ← HaloIter.walk fuel it
      .ok (p :: ps)

/-- `n` successive increments. `++it`, src/halo_particle_iterator.h:34-44. -/
def HaloIter.nextN : Nat → HaloIter α → Outcome (HaloIter α)
  | 0, it => .ok it
  | n + 1, it => do
    let it ← it.next
    HaloIter.nextN n it

end HBT.Model
