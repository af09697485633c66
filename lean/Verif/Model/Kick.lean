import Verif.Model.Outcome
import Verif.Spec.Types
/-!
# Model of `KickNullParticles` (builds without `DM_ONLY`)
-/
namespace HBT.Model
variable {D : Type}

/-- `if(it!=it_save) *it_save=move(*it)`, src/subhalo.cpp:457. -/
def moveTo (it save : Nat) (p : Particle D) (arr : List (Particle D)) : Outcome (List (Particle D)) :=
  if it ≠ save then Outcome.set arr save p else .ok arr

/-- The compaction loop, src/halo.cpp:137-145, src/subhalo.cpp:453-460 and 464-471, for the
`n` positions from `it` on. `save` is the position of `it_save`. A moved-from particle keeps its
old value in the model. -/
def kickLoop : Nat → Nat → Nat → List (Particle D) → Outcome (Nat × List (Particle D))
  | 0, _, save, arr => .ok (save, arr)
  | n + 1, it, save, arr => do
    let p ← Outcome.get arr it
    if p.id ≠ nullId then do
      let arr ← moveTo it save p arr
      kickLoop n (it + 1) (save + 1) arr
    else kickLoop n (it + 1) save arr

/-- `Halo_t::KickNullParticles`, src/halo.cpp:131-150. Returns the particles left and the number
removed. -/
def kickHalo (ps : List (Particle D)) : Outcome (List (Particle D) × Nat) := do
  let (save, arr) ← kickLoop ps.length 0 0 ps
  .ok (arr.take save, ps.length - save)

/-- `Subhalo_t::KickNullParticles`, src/subhalo.cpp:446-477. Returns the new `Nbound`, the particles
left and the number removed. -/
def kickSubhalo (nbound : Nat) (ps : List (Particle D)) :
    Outcome (Nat × List (Particle D) × Nat) := do
  let (save, arr) ← kickLoop nbound 0 0 ps
  let nbound' := save
  let (save, arr) ← kickLoop (ps.length - nbound) nbound save arr
  .ok (nbound', arr.take save, ps.length - save)

/-- `Halo_t::KickNullParticles` in a build with `DM_ONLY`, src/halo.cpp:133-134: nothing is done. -/
def kickHaloDmOnly (ps : List (Particle D)) : Outcome (List (Particle D) × Nat) := .ok (ps, 0)

end HBT.Model
