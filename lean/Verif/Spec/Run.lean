import Verif.Spec.Refine
/-!
# Specification: what a track remembers of its history
-/
namespace HBT.Spec
variable {K D : Type}

/-- All subhaloes of all processes. -/
def everyone {P : Nat} (st : Fin P → List (Sub K D)) : List (Sub K D) := (List.ofFn st).flatten

/-- What is seen of track `t` in a sequence of states (latest first; each with its snapshot number and all its
subhaloes). -/
def visits (tr : List (Int × List (Sub K D))) (t : Int) : List (Int × Sub K D) :=
  tr.flatMap (fun x => (x.2.filter (fun s => decide (s.trackId = t))).map (fun s => (x.1, s)))

/-- C34: the records of `s` about the states `vs` in which the track was seen, `s` itself first. -/
structure Recorded [LE K] [LT K] (vs : List (Int × Sub K D)) (s : Sub K D) : Prop where
  /-- largest mass so far, and the latest snapshot in which it was reached -/
  peak : ∃ after v before, vs = after ++ v :: before ∧ s.lastMaxMass = v.2.mbound ∧ s.snapMaxMass = v.1 ∧
    (∀ w ∈ vs, w.2.mbound ≤ v.2.mbound) ∧ ∀ w ∈ after, w.2.mbound < v.2.mbound
  /-- latest snapshot with rank 0 -/
  isolation : (∃ after v before, vs = after ++ v :: before ∧ v.2.rank = 0 ∧ s.snapIsolation = v.1 ∧ ∀ w ∈ after, w.2.rank ≠ 0) ∨
    ((∀ w ∈ vs, w.2.rank ≠ 0) ∧ s.snapIsolation = nullSnap)
  /-- first snapshot in which the track was seen -/
  birth : vs.getLast?.map Prod.fst = some s.snapBirth

/-- C34: the death mark of `s` is none if `s` is resolved, else the number of the snapshot in which the
current sequence of states without resolved subhalo began. -/
def DeathMark (vs : List (Int × Sub K D)) (s : Sub K D) : Prop :=
  (Resolved s → s.snapDeath = nullSnap) ∧
  (¬ Resolved s → ∃ after v u before, vs = after ++ v :: u :: before ∧ s.snapDeath = v.1 ∧
    (∀ w ∈ after ++ [v], ¬ Resolved w.2) ∧ Resolved u.2)

/-- The sink of `s`: none and no snapshot, or another track that exists in `ids`, and the number of a
snapshot since which the track has had this sink. -/
def SinkMark (ids : List Int) (vs : List (Int × Sub K D)) (s : Sub K D) : Prop :=
  (s.sinkTrackId = nullTrack ∧ s.snapSink = nullSnap) ∨
  (s.sinkTrackId ∈ ids ∧ s.sinkTrackId ≠ s.trackId ∧
    ∃ after v before, vs = after ++ v :: before ∧ s.snapSink = v.1 ∧
      ∀ w ∈ after ++ [v], w.2.sinkTrackId = s.sinkTrackId ∧ w.2.snapSink = s.snapSink)

end HBT.Spec
