import Verif.Model.Outcome
/-!
# Model of `ParticleExchangeComp::RestoreParticleOrder`, src/particle_exchanger.h:72-82
-/
namespace HBT.Model
variable {β : Type}

/-- The inner `while(i!=j) swap(p, P[j])`, src/particle_exchanger.h:77-80: `p` is a reference to
`P[i]` and `j` a reference to its `Order`, so both are re-read after each swap. -/
def restoreInner (ord : β → Nat) (i : Nat) : Nat → List β → Outcome (List β)
  | 0, _ => .diverge
  | fuel + 1, P => do
    let p ← Outcome.get P i
    let j := ord p
    if i = j then .ok P
    else do
      let q ← Outcome.get P j
      restoreInner ord i fuel ((P.set i q).set j p)

/-- The loop `for(i=0;i<P.size();i++)` from `i` on, for `n` more passes. src/particle_exchanger.h:72-82. -/
def restoreLoop (ord : β → Nat) : Nat → Nat → List β → Outcome (List β)
  | 0, _, P => .ok P
  | n + 1, i, P => do
    let P ← restoreInner ord i (P.length + 1) P
    restoreLoop ord n (i + 1) P

/-- `RestoreParticleOrder`, src/particle_exchanger.h:72-82. `ord` reads the member `Order`. -/
def restoreOrder (ord : β → Nat) (P : List β) : Outcome (List β) :=
  restoreLoop ord P.length 0 P

end HBT.Model
