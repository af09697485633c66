import Verif.Spec.Refine
/-!
# Specification: trapping and merging
-/
namespace HBT.Spec
variable {K D : Type}

def Alive (s : Sub K D) : Prop := s.snapDeath = nullSnap

/-- The innermost resolved subhalo that contains `i` and into which `i` has sunk. -/
def SinkFound (contains : Nat → Nat → Prop) (sunk : Nat → Nat → Bool) (subs : List (Sub K D)) (i : Nat) : Option Nat → Prop
  | none => ∀ q t, contains q i → subs[q]? = some t → Resolved t → sunk i q = false
  | some p => contains p i ∧ (∃ t, subs[p]? = some t ∧ Resolved t) ∧ sunk i p = true ∧
      ∀ q t, contains q i → contains p q → subs[q]? = some t → Resolved t → sunk i q = false

/-- `q` is the sink of `i`, or the sink of its sink, and so on. -/
inductive SinkChain (sink : Nat → Option Nat) : Nat → Nat → Prop
  | one (i q : Nat) (h : sink i = some q) : SinkChain sink q i
  | more (i p q : Nat) (h : sink i = some p) (hc : SinkChain sink q p) : SinkChain sink q i

/-- C32. `traps i` is the sink found for subhalo `i` in this snapshot, `merges i` the same if `i` is to be
merged, `middle i` are the particles of a sink before it is unbound again. -/
structure MergingCore [MassSum K] (on : Bool) (minNum : Nat) (mass : D → K) (snap : Int) (contains : Nat → Nat → Prop)
    (sunk : Nat → Nat → Bool) (before after : List (Sub K D)) (traps merges : Nat → Option Nat)
    (middle : Nat → List (Particle D)) : Prop where
  length : after.length = before.length
  /-- who was trapped before is not searched again -/
  old : ∀ i s, before[i]? = some s → s.sinkTrackId ≠ nullTrack → traps i = none
  found : ∀ i s, before[i]? = some s → s.sinkTrackId = nullTrack → SinkFound contains sunk before i (traps i)
  /-- living subhaloes that are trapped merge, if this is wanted -/
  merges_ : ∀ i s, before[i]? = some s → ∀ p, merges i = some p ↔ on = true ∧ Alive s ∧ traps i = some p
  beyond : ∀ i, before[i]? = none → merges i = none
  /-- the sink and its snapshot are recorded, nothing else of the track changes -/
  each : ∀ i s, before[i]? = some s → ∃ s', after[i]? = some s' ∧ SameTrack s s' ∧
    (∀ p, traps i = some p → s'.sinkTrackId = (p : Int) ∧ s'.snapSink = snap) ∧
    (traps i = none → s'.sinkTrackId = s.sinkTrackId ∧ s'.snapSink = s.snapSink)
  /-- who is merged away is left as an orphan with its most bound particle, dead from now on -/
  away : ∀ i p s s', before[i]? = some s → after[i]? = some s' → merges i = some p →
    s'.nbound = 1 ∧ s'.particles = s.particles.take 1 ∧ s'.particles.length = 1 ∧ s'.snapDeath = snap ∧ BoundMass mass s'
  /-- who neither merges nor is a sink keeps everything -/
  still : ∀ i s s', before[i]? = some s → after[i]? = some s' → merges i = none → (∀ j, merges j ≠ some i) →
    s'.nbound = s.nbound ∧ s'.mbound = s.mbound ∧ s'.particles = s.particles ∧ s'.snapDeath = s.snapDeath
  /-- a sink gets, each once, particles it does not have, of those that sank into it, and is unbound again -/
  grown : ∀ i s s' j, before[i]? = some s → after[i]? = some s' → merges i = none → merges j = some i →
    (∃ extra, middle i = s.particles ++ extra ∧ (extra.map Particle.id).Nodup ∧
      ∀ x ∈ extra, x.id ∉ sourceIds s ∧ ∃ k t, before[k]? = some t ∧ SinkChain merges i k ∧ x ∈ t.particles) ∧
    RefinedSub minNum mass snap (s.withParticles (middle i)) s' ∧ ∃ w, w.Perm (middle i) ∧ s'.particles <+: w

/-- C32. All that merging does. -/
structure Merging [MassSum K] (on : Bool) (minNum : Nat) (mass : D → K) (snap : Int) (contains : Nat → Nat → Prop)
    (sunk : Nat → Nat → Bool) (before after : List (Sub K D)) (traps merges : Nat → Option Nat)
    (middle : Nat → List (Particle D)) : Prop
    extends MergingCore on minNum mass snap contains sunk before after traps merges middle where
  /-- every particle of a merged subhalo arrives in the sink at the end of the chain -/
  conserved : ∀ i s p, before[i]? = some s → merges i = some p → ∀ x ∈ sourceIds s,
    ∃ q, SinkChain merges q i ∧ merges q = none ∧ x ∈ (middle q).map Particle.id

end HBT.Spec
