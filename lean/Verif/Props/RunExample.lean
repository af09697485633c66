import Verif.Props.Run
import Verif.Props.Unbind
/-!
# A concrete run

Three subhaloes in four snapshots on two processes: `a` becomes part of `b`, both become part of `c`, and `a`
sinks into `c`. It meets the hypotheses of the theorems of `Props/Run`, and shows what does not hold.
-/
namespace HBT.Props
open HBT HBT.Model HBT.Spec HBT.Spec.Forest

abbrev RS := Fin 2 → List (Sub ℚ Nat)

def rEnv (e : Nat → Int) : UnbindEnv ℚ Nat Int :=
  { energy := fun _ => e, inner := fun _ => 0, junk := fun _ => 0, shuffle := id, sortE := exESort, mass := fun m => (m : ℚ) }

def rPar (consumed : Bool) : Params ℚ Nat :=
  { chunk := 8, sortKeys := exKeySort, bsearch := exampleBsearch, sortMass := exMassSort
    cfg := { minNum := 2, maxSample := 0, refine := false, prec := 9/10, relax := 3 }
    mass := fun m => (m : ℚ), merging := true, consumed := consumed }

theorem rPar_ok (b : Bool) : (rPar b).Ok :=
  ⟨by decide +revert, exKeySort_spec, exampleBsearch_spec, exMassSort_spec, stops_exact (by norm_num [rPar]), by decide +revert, keeps_exact (by norm_num [rPar])⟩

theorem rEnv_ok (b : Bool) (e : Nat → Int) : EnvOk (rEnv e) ∧ (rEnv e).mass = (rPar b).mass :=
  ⟨⟨exESort_spec, fun _ => List.Perm.refl _⟩, rfl⟩

/-- A new subhalo in halo `h` with the given particles, each of mass 1. -/
def rBorn (snap h : Int) (ids : List Int) : Sub ℚ Nat :=
  { mbound := 0, lastMaxMass := 0, hostHaloId := h, nbound := ids.length, particles := ids.map (fun i => ⟨i, 1⟩), snapBirth := snap }

def rIn (h : Int) (s : Sub ℚ Nat) : Sub ℚ Nat := { s with hostHaloId := h }

/-- The snapshot with the states that the model computes. -/
def rCompute (par : Params ℚ Nat) (x : Inputs ℚ Nat Int 2) : Snapshot ℚ Nat Int 2 :=
  let nested := okOr (nestSubhalos par.chunk par.sortKeys par.bsearch x.order x.groups x.field (fun r => x.old r ++ x.new r)) (fun _ => ([], []))
  let masked : RS := fun r => okOr (maskSubhalos (nested r).1.length (x.maskOrder r) (x.groups r) (nested r).2 (nested r).1) []
  let refined : RS := fun r => okOr (refineParticles par.cfg (x.env r) x.snap (masked r).length (x.hostOrder r) (x.lone r)
    (x.groups r) (nested r).2 (masked r)) []
  let merged : RS := fun r => okOr (mergeSubhalos par.cfg (x.env' r) par.mass par.merging (x.sunk r) x.snap ((refined r).length + 1)
    (x.mergeOrder r) (x.each r) (x.groups r) (nested r).2 (refined r)) []
  let out := okOr (updateTracks par.sortMass x.snap x.haloIds (fun r => (x.new r).length) (fun r => (nested r).2) merged) (fun _ => [])
  { toInputs := x, nested := nested, masked := masked, refined := refined, merged := merged, out := out }

theorem rComputed {par : Params ℚ Nat} {d : Snapshot ℚ Nat Int 2} (e : d = rCompute par d.toInputs)
    (h1 : isOk (nestSubhalos par.chunk par.sortKeys par.bsearch d.order d.groups d.field (fun r => d.old r ++ d.new r)) = true)
    (h2 : ∀ r, isOk (maskSubhalos (d.nested r).1.length (d.maskOrder r) (d.groups r) (d.nested r).2 (d.nested r).1) = true)
    (h3 : ∀ r, isOk (refineParticles par.cfg (d.env r) d.snap (d.masked r).length (d.hostOrder r) (d.lone r) (d.groups r)
      (d.nested r).2 (d.masked r)) = true)
    (h4 : ∀ r, isOk (mergeSubhalos par.cfg (d.env' r) par.mass par.merging (d.sunk r) d.snap ((d.refined r).length + 1) (d.mergeOrder r)
      (d.each r) (d.groups r) (d.nested r).2 (d.refined r)) = true)
    (h5 : isOk (updateTracks par.sortMass d.snap d.haloIds (fun r => (d.new r).length) (fun r => (d.nested r).2) d.merged) = true) :
    Computed par d := by
  rw [e] at h1 h2 h3 h4 h5 ⊢
  exact ⟨ok_okOr _ h1, fun r => ok_okOr _ (h2 r), fun r => ok_okOr _ (h3 r), fun r => ok_okOr _ (h4 r), ok_okOr _ h5⟩

def rNo : RS := fun _ => []

/-- Births: `a` and `b` on the first process, `c` on the second. -/
def rX0 : Inputs ℚ Nat Int 2 :=
  { snap := 0, moved := rNo, old := rNo
    new := pick [rBorn 0 0 [1, 2, 3, 4], rBorn 0 1 [11, 12, 13]] [rBorn 0 0 [21, 22, 23, 24, 25]]
    haloIds := pick [100, 101] [102], groups := pick [[], []] [[]], field := pick [] [], order := pick [1, 0] [0]
    maskOrder := pick [1, 0] [0], hostOrder := pick [0, 1] [0], lone := pick [1, 0] [0], mergeOrder := pick [1, 0] [0]
    each := pick [1, 0] [0]
    env := fun _ _ => rEnv (fun _ => -1), env' := fun _ _ => rEnv (fun _ => -1), sunk := fun _ _ _ => false }

def rD0 := rCompute (rPar false) rX0


/-- `a` is found in the halo of `b`, and only half of it is bound. -/
def rX1 : Inputs ℚ Nat Int 2 :=
  { snap := 1, moved := rD0.out, old := pick ((rD0.out 0).map (rIn 0)) ((rD0.out 1).map (rIn 0))
    new := rNo
    haloIds := pick [200] [201], groups := pick [[1, 0]] [[0]], field := pick [] [], order := pick [0, 1] [0]
    maskOrder := pick [0] [0], hostOrder := pick [0] [0], lone := pick [] [], mergeOrder := pick [0] [0]
    each := pick [1, 0] [0]
    env := fun r i => rEnv (fun k => if r = 0 ∧ i = 0 ∧ 2 ≤ k then 1 else -1), env' := fun _ _ => rEnv (fun _ => -1)
    sunk := fun _ _ _ => false }

def rD1 := rCompute (rPar false) rX1

def rX2 : Inputs ℚ Nat Int 2 :=
  { snap := 2, moved := pick (rD1.out 0 ++ rD1.out 1) [], old := pick ((rD1.out 0 ++ rD1.out 1).map (rIn 0)) []
    new := rNo
    haloIds := pick [300] [], groups := pick [[2, 1, 0]] [], field := pick [] [], order := pick [0, 2, 1] []
    maskOrder := pick [0] [], hostOrder := pick [0] [], lone := pick [] [], mergeOrder := pick [0] []
    each := pick [1, 0, 2] []
    env := fun _ i => rEnv (fun k => if i = 0 ∧ 2 ≤ k then 1 else -1), env' := fun _ _ => rEnv (fun _ => -1)
    sunk := fun _ i h => i = 0 ∧ h = 2 }
def rD2 := rCompute (rPar false) rX2

def bare (s : Sub ℚ Nat) : Sub ℚ Nat := { s with hostHaloId := 0, particles := [], nbound := 0, mbound := 0 }

theorem carried_of_checks {b : Bool} {l l' : List (Sub ℚ Nat)} (h : l.map bare = l'.map bare)
    (h' : ∀ i < l.length, ((l'[i]?).map Sub.nbound = (l[i]?).map Sub.nbound ∧
        (l'[i]?).map (fun s => s.particles.length) = (l[i]?).map (fun s => s.particles.length)) ∨
      (b = true ∧ ((l'[i]?).map Sub.nbound).getD 0 ≤ ((l[i]?).map Sub.nbound).getD 0 ∧
        ((l'[i]?).map Sub.nbound).getD 0 ≤ ((l'[i]?).map (fun s => s.particles.length)).getD 0 ∧
        ((l'[i]?).map (fun s => s.particles.length)).getD 0 ≤ ((l[i]?).map (fun s => s.particles.length)).getD 0 ∧
        ((l[i]?).map Sub.nbound = (l[i]?).map (fun s => s.particles.length) → (l'[i]?).map Sub.nbound = (l'[i]?).map (fun s => s.particles.length)))) :
    List.Forall₂ (Carried b) l l' := by
  have hl : l.length = l'.length := by simpa using congrArg List.length h
  refine List.forall₂_iff_get.2 ⟨hl, fun i hi hi' => ?_⟩
  simp only [List.get_eq_getElem]
  have e : bare l[i] = bare l'[i] := by
    have := congrArg (fun m : List (Sub ℚ Nat) => m[i]?) h
    simpa [List.getElem?_map, List.getElem?_eq_getElem hi, List.getElem?_eq_getElem hi'] using this
  have e' := h' i hi
  simp only [List.getElem?_eq_getElem hi, List.getElem?_eq_getElem hi', Option.map_some, Option.some.injEq, Option.getD_some] at e'
  refine ⟨?_, ?_⟩
  · generalize l[i] = s at e
    generalize l'[i] = s' at e
    cases s
    cases s'
    simp only [bare, Sub.mk.injEq] at e ⊢
    simp [e]
  · rcases e' with e' | e'
    · exact Or.inl e'
    · exact Or.inr (Or.inr e')

theorem rInputs_ok {b : Bool} {Q : Nat} {prev : Fin Q → List (Sub ℚ Nat)} {x : Inputs ℚ Nat Int 2}
    (h0 : 0 ≤ x.snap)
    (h1 : (allLinks x.old).Perm (allLinks prev))
    (h2 : ∀ r, ∀ s ∈ x.old r, -1 ≤ s.hostHaloId ∧ s.hostHaloId < (x.haloIds r).length)
    (h3 : ∀ r, (x.haloIds r).Nodup ∧ (-1 : Int) ∉ x.haloIds r)
    (h4 : ∀ r, (x.groups r).length = (x.haloIds r).length)
    (h5 : ∀ r, ∀ h < (x.groups r).length, ((x.groups r)[h]?.getD []).Perm (membersOf true (x.old r) (h : Int)))
    (h6 : ∀ r, (x.field r).Perm (membersOf true (x.old r) (-1)))
    (h7 : ∀ r, ∀ s ∈ x.new r, s.trackId = nullTrack ∧ s.rank = 0 ∧ s.nested = [] ∧
      0 ≤ s.hostHaloId ∧ s.hostHaloId < (x.haloIds r).length ∧ ∀ u ∈ x.old r, u.hostHaloId ≠ s.hostHaloId)
    (h8 : ∀ r, ((x.new r).map Sub.hostHaloId).Nodup)
    (h9 : ∀ r, (x.order r).Perm (List.range (x.old r ++ x.new r).length))
    (h10 : (everyone x.moved).Perm (everyone prev))
    (h11 : ∀ r, List.Forall₂ (Carried b) (x.moved r) (x.old r))
    (h12 : ∀ r, ∀ s ∈ x.new r, s.nbound = s.particles.length ∧ s.lastMaxMass = 0 ∧ s.snapMaxMass = nullSnap ∧
      s.snapIsolation = nullSnap ∧ s.snapBirth = x.snap ∧ s.snapDeath = nullSnap ∧ s.snapSink = nullSnap ∧
      s.sinkTrackId = nullTrack)
    (h13 : ∀ r, (x.maskOrder r).Perm (List.range (x.groups r).length) ∧ (x.hostOrder r).Perm (List.range (x.groups r).length) ∧
      (x.lone r).Perm (x.field r ++ (List.range (x.new r).length).map ((x.old r).length + ·)) ∧
      (x.mergeOrder r).Perm (List.range (x.groups r).length) ∧ (x.each r).Perm (List.range ((x.old r).length + (x.new r).length)))
    (h14 : ∀ r i, ∃ e e', x.env r i = rEnv e ∧ x.env' r i = rEnv e') : InputsOk (rPar b) prev x where
  snap := h0
  arrival := arrival_of_checks _ _ _ _ _ _ _ h1 h2 h3 h4 h5 h6 h7 h8 h9
  moved := h10
  carried := h11
  born := h12
  maskOrder := fun r => (h13 r).1
  hostOrder := fun r => (h13 r).2.1
  lone := fun r => (h13 r).2.2.1
  mergeOrder := fun r => (h13 r).2.2.2.1
  each := fun r => (h13 r).2.2.2.2
  env := fun r i => by obtain ⟨e, _, h, _⟩ := h14 r i; rw [h]; exact rEnv_ok _ _
  env' := fun r i => by obtain ⟨_, e, _, h⟩ := h14 r i; rw [h]; exact rEnv_ok _ _

theorem rRun0 : Run (rPar false) [⟨2, rD0⟩] :=
  .next [] rD0 .start
    (rInputs_ok (prev := (latest ([] : List (Σ P, Snapshot ℚ Nat Int P))).2) (x := rD0.toInputs) (by decide +kernel) (by decide +kernel) (by decide +kernel) (by decide +kernel) (by decide +kernel) (by decide +kernel)
      (by decide +kernel) (by decide +kernel) (by decide +kernel) (by decide +kernel) (by decide +kernel)
      (fun r => carried_of_checks (by revert r; decide +kernel) (by revert r; decide +kernel)) (by decide +kernel) (by decide +kernel)
      (fun _ _ => ⟨_, _, rfl, rfl⟩))
    (fun _ h => by cases h)
    (rComputed rfl (by decide +kernel) (by decide +kernel) (by decide +kernel) (by decide +kernel) (by decide +kernel))

theorem rRun1 : Run (rPar false) [⟨2, rD1⟩, ⟨2, rD0⟩] :=
  .next _ rD1 rRun0
    (rInputs_ok (by decide +kernel) (by decide +kernel) (by decide +kernel) (by decide +kernel) (by decide +kernel) (by decide +kernel)
      (by decide +kernel) (by decide +kernel) (by decide +kernel) (by decide +kernel) (by decide +kernel)
      (fun r => carried_of_checks (by revert r; decide +kernel) (by revert r; decide +kernel)) (by decide +kernel) (by decide +kernel)
      (fun _ _ => ⟨_, _, rfl, rfl⟩))
    (by decide +kernel)
    (rComputed rfl (by decide +kernel) (by decide +kernel) (by decide +kernel) (by decide +kernel) (by decide +kernel))

theorem rRun2 : Run (rPar false) [⟨2, rD2⟩, ⟨2, rD1⟩, ⟨2, rD0⟩] :=
  .next _ rD2 rRun1
    (rInputs_ok (by decide +kernel) (by decide +kernel) (by decide +kernel) (by decide +kernel) (by decide +kernel) (by decide +kernel)
      (by decide +kernel) (by decide +kernel) (by decide +kernel) (by decide +kernel) (by decide +kernel)
      (fun r => carried_of_checks (by revert r; decide +kernel) (by revert r; decide +kernel)) (by decide +kernel) (by decide +kernel)
      (fun _ _ => ⟨_, _, rfl, rfl⟩))
    (by decide +kernel)
    (rComputed rfl (by decide +kernel) (by decide +kernel) (by decide +kernel) (by decide +kernel) (by decide +kernel))

/-- A fourth snapshot: what is left of `a` still exists, `b` is gone from the halo and has no host. -/
def rX3 : Inputs ℚ Nat Int 2 :=
  { snap := 5, moved := pick [] (rD2.out 0), old := pick [] ([0, -1, 0].zipWith rIn (rD2.out 0))
    new := pick [rBorn 5 0 [31, 32]] []
    haloIds := pick [400] [401], groups := pick [[]] [[2, 0]], field := pick [] [1], order := pick [0] [0, 2, 1]
    maskOrder := pick [0] [0], hostOrder := pick [0] [0], lone := pick [0] [1], mergeOrder := pick [0] [0]
    each := pick [0] [1, 0, 2]
    env := fun _ _ => rEnv (fun _ => -1), env' := fun _ _ => rEnv (fun _ => -1)
    sunk := fun _ _ _ => false }
def rD3 := rCompute (rPar false) rX3

def rTr3 : List (Σ P, Snapshot ℚ Nat Int P) := [⟨2, rD3⟩, ⟨2, rD2⟩, ⟨2, rD1⟩, ⟨2, rD0⟩]
theorem rLatest3 : latest rTr3 = ⟨2, rD3.out⟩ := rfl

theorem rRun3 : Run (rPar false) rTr3 :=
  .next _ rD3 rRun2
    (rInputs_ok (by decide +kernel) (by decide +kernel) (by decide +kernel) (by decide +kernel) (by decide +kernel) (by decide +kernel)
      (by decide +kernel) (by decide +kernel) (by decide +kernel) (by decide +kernel) (by decide +kernel)
      (fun r => carried_of_checks (by revert r; decide +kernel) (by revert r; decide +kernel)) (by decide +kernel) (by decide +kernel)
      (fun _ _ => ⟨_, _, rfl, rfl⟩))
    (by decide +kernel)
    (rComputed rfl (by decide +kernel) (by decide +kernel) (by decide +kernel) (by decide +kernel) (by decide +kernel))

/-- In a build where particles can be consumed: the most bound particle of `a` is consumed after the second
snapshot. -/
def rX2' : Inputs ℚ Nat Int 2 :=
  { snap := 2, moved := rD1.out
    old := pick ((rD1.out 0).zipWith (fun s k => { rIn 0 s with nbound := s.nbound - k, particles := s.particles.drop k }) [1, 0])
      ((rD1.out 1).map (rIn 0))
    new := rNo
    haloIds := pick [200] [201], groups := pick [[1, 0]] [[0]], field := pick [] [], order := pick [0, 1] [0]
    maskOrder := pick [0] [0], hostOrder := pick [0] [0], lone := pick [] [], mergeOrder := pick [0] [0]
    each := pick [1, 0] [0]
    env := fun _ _ => rEnv (fun _ => -1), env' := fun _ _ => rEnv (fun _ => -1)
    sunk := fun _ _ _ => false }
def rD2' := rCompute (rPar true) rX2'

theorem rRun0' : Run (rPar true) [⟨2, rD0⟩] :=
  .next [] rD0 .start
    (rInputs_ok (prev := (latest ([] : List (Σ P, Snapshot ℚ Nat Int P))).2) (x := rD0.toInputs) (by decide +kernel) (by decide +kernel) (by decide +kernel) (by decide +kernel) (by decide +kernel) (by decide +kernel)
      (by decide +kernel) (by decide +kernel) (by decide +kernel) (by decide +kernel) (by decide +kernel)
      (fun r => carried_of_checks (by revert r; decide +kernel) (by revert r; decide +kernel)) (by decide +kernel) (by decide +kernel)
      (fun _ _ => ⟨_, _, rfl, rfl⟩))
    (by decide +kernel)
    (rComputed rfl (by decide +kernel) (by decide +kernel) (by decide +kernel) (by decide +kernel) (by decide +kernel))

theorem rRun1' : Run (rPar true) [⟨2, rD1⟩, ⟨2, rD0⟩] :=
  .next _ rD1 rRun0'
    (rInputs_ok (by decide +kernel) (by decide +kernel) (by decide +kernel) (by decide +kernel) (by decide +kernel) (by decide +kernel)
      (by decide +kernel) (by decide +kernel) (by decide +kernel) (by decide +kernel) (by decide +kernel)
      (fun r => carried_of_checks (by revert r; decide +kernel) (by revert r; decide +kernel)) (by decide +kernel) (by decide +kernel)
      (fun _ _ => ⟨_, _, rfl, rfl⟩))
    (by decide +kernel)
    (rComputed rfl (by decide +kernel) (by decide +kernel) (by decide +kernel) (by decide +kernel) (by decide +kernel))

theorem rRun2' : Run (rPar true) [⟨2, rD2'⟩, ⟨2, rD1⟩, ⟨2, rD0⟩] :=
  .next _ rD2' rRun1'
    (rInputs_ok (by decide +kernel) (by decide +kernel) (by decide +kernel) (by decide +kernel) (by decide +kernel) (by decide +kernel)
      (by decide +kernel) (by decide +kernel) (by decide +kernel) (by decide +kernel) (by decide +kernel)
      (fun r => carried_of_checks (by revert r; decide +kernel) (by revert r; decide +kernel)) (by decide +kernel) (by decide +kernel)
      (fun _ _ => ⟨_, _, rfl, rfl⟩))
    (by decide +kernel)
    (rComputed rfl (by decide +kernel) (by decide +kernel) (by decide +kernel) (by decide +kernel) (by decide +kernel))


/-! ## What the run looks like -/

/-- Id, host, rank, nest, bound particles, source, death, sink. -/
def rShow (l : List (Sub ℚ Nat)) : List ((Int × Int × Int × List Int) × (Nat × List Int × Int × Int)) :=
  l.map (fun s => ((s.trackId, s.hostHaloId, s.rank, s.nested), (s.nbound, s.particles.map Particle.id, s.snapDeath, s.sinkTrackId)))

example : rShow (rD1.out 0) = [((0, 200, 1, []), (2, [4, 2, 3, 1], -1, -1)), ((1, 200, 0, [0]), (5, [1, 12, 11, 3, 13], -1, -1))] := by
  decide +kernel
example : rShow (rD2.out 0) = [((0, 300, 2, []), (1, [4], 2, 2)), ((1, 300, 1, [0]), (5, [1, 11, 13, 3, 12], -1, -1)),
    ((2, 300, 0, [1]), (9, [1, 22, 23, 24, 21, 4, 2, 3, 25], -1, -1))] := by decide +kernel
example : rShow (rD3.out 1) = [((0, 401, 1, []), (1, [4], 2, 2)), ((1, -1, 0, []), (5, [12, 11, 13, 3, 1], -1, -1)),
    ((2, 401, 0, [0]), (9, [25, 22, 23, 24, 21, 4, 2, 3, 1], -1, -1))] := by decide +kernel

/-! ## The hypotheses of the theorems are met -/

/-- C51: the next snapshot can be computed. -/
example : ∃! d : Snapshot ℚ Nat Int 2, d.toInputs = rX3 ∧ Run (rPar false) [⟨2, d⟩, ⟨2, rD2⟩, ⟨2, rD1⟩, ⟨2, rD0⟩] := by
  refine C51_never_fails (rPar_ok _) rRun2 rX3 ?_ ?_
  · cases rRun3 with | next _ _ _ ok _ _ => exact ok
  · cases rRun3 with | next _ _ _ _ later _ => exact later

/-- C29: `a` has been merged away, `c` is resolved. -/
example : ∃ s ∈ rD2.out 0, s.trackId = 0 ∧ s.nbound = 1 ∧ s.particles.length = 1 ∧ ¬ Alive s ∧ BoundMass (rPar false).mass s := by
  have hm : ∃ s ∈ rD2.out 0, s.trackId = 0 ∧ s.nbound = 1 := by decide +kernel
  obtain ⟨s, hs, h1, h2⟩ := hm
  have h := C29_every_state (rPar_ok false) rRun2 s (mem_everyone.2 ⟨(0 : Fin 2), hs⟩)
  refine ⟨s, hs, h1, h2, ?_, ?_, h.2.2.2 rfl⟩
  · rcases h.2.1 with h3 | h3
    · have : (rPar false).cfg.minNum = 2 := rfl
      omega
    · omega
  · rw [h.2.2.1]
    unfold Resolved
    omega

/-- C30: after unbinding, no particle of the host 300 is shared. -/
example : ExclusiveBound [2, 1, 0] (rD2.refined 0) :=
  C30_exclusive (rPar_ok false) rfl rRun2 0 _ (by decide +kernel)
/-- C30: at the end of the second snapshot the bound particles of `a` and `b` are disjoint. -/
example : ∀ s t, (rD1.out 0)[0]? = some s → (rD1.out 0)[1]? = some t → ∀ x ∈ boundIds s, x ∉ boundIds t := by
  intro s t hs ht
  have e : ((rD1.out 0)[0]?.map (fun s => (s.hostHaloId, decide (1 < s.nbound)))) = some (200, true) ∧
      ((rD1.out 0)[1]?.map (fun s => (s.hostHaloId, decide (1 < s.nbound)))) = some (200, true) ∧
      ∀ u ∈ rD1.out 0, u.snapSink ≠ rD1.snap := by decide +kernel
  rw [hs, ht] at e
  simp only [Option.map_some, Option.some.injEq, Prod.mk.injEq, decide_eq_true_eq] at e
  obtain ⟨⟨e1, e2⟩, ⟨e3, e4⟩, e5⟩ := e
  exact C30_exclusive_output (rPar_ok false) rfl rRun1 0 0 1 s t hs ht (by decide) (by rw [e1, e3]) (by rw [e1]; decide)
    (Or.inr (fun u hu _ => e5 u hu)) e2 e4
example : ∃ left, (left ++ gather boundIds (rD2.refined 0) [2, 1, 0]).Perm (gather sourceIds (rD2.masked 0) [2, 1, 0]) :=
  C30_conserved (rPar_ok false) rRun2 0 _ (by decide +kernel)

/-- C32: in the third snapshot somebody merges. -/
example : ∃ traps merges middle, Merging true 2 (rPar false).mass 2 (Contains (rD2.refined 0) [[2, 1, 0]])
    (rX2.sunk 0) (rD2.refined 0) (rD2.merged 0) traps merges middle :=
  C32_merging (rPar_ok false) rRun2 0
example : ∃ s ∈ rD3.out 1, s.sinkTrackId = 2 ∧ SinkMark (allIds (latest rTr3).2) (visits (ends rTr3) s.trackId) s := by
  have hm : ∃ s ∈ rD3.out 1, s.sinkTrackId = 2 := by decide +kernel
  obtain ⟨s, hs, h⟩ := hm
  have hs0 : s ∈ everyone rD3.out := mem_everyone.2 ⟨1, hs⟩
  have hs' : s ∈ everyone (latest rTr3).2 := by rw [rLatest3]; dsimp only; exact hs0
  exact ⟨s, hs, h, C32_sink_record (rPar_ok false) rRun3 s hs'⟩

/-- C34: track 0 had its largest mass in the first snapshot, died in the third. -/
example : ∃ s ∈ rD3.out 1, s.trackId = 0 ∧ s.snapMaxMass = 0 ∧ s.lastMaxMass = 4 ∧ s.snapDeath = 2 ∧
    Recorded (visits (ends rTr3) s.trackId) s ∧ DeathMark (visits (checks rTr3) s.trackId) s := by
  have hm : ∃ s ∈ rD3.out 1, s.trackId = 0 ∧ s.snapMaxMass = 0 ∧ s.lastMaxMass = 4 ∧ s.snapDeath = 2 := by decide +kernel
  obtain ⟨s, hs, h1, h2, h3, h4⟩ := hm
  have hs0 : s ∈ everyone rD3.out := mem_everyone.2 ⟨1, hs⟩
  have hs' : s ∈ everyone (latest rTr3).2 := by rw [rLatest3]; dsimp only; exact hs0
  exact ⟨s, hs, h1, h2, h3, h4, C34_history (rPar_ok false) nonnegSums_exact (fun x => by simp [rPar]) rRun3 s hs', C34_death (rPar_ok false) rRun3 s hs'⟩

/-! ## What does not hold -/

/-- C30, what does not hold: merging can bind a particle to two resolved subhaloes of the same host.
In the third snapshot `a` is nested in `b` and `b` in `c`. Unbinding hands the unbound particles 1 and 3 of `a`
to `b`, which binds them, but they also stay in the source of `a`. Then `a` sinks into `c`, which gets the
source of `a` and binds them, too. -/
theorem C30_merging_shares : (rPar false).Ok ∧ Run (rPar false) [⟨2, rD2⟩, ⟨2, rD1⟩, ⟨2, rD0⟩] ∧
    ∃ s ∈ rD2.out 0, ∃ t ∈ rD2.out 0, s.trackId ≠ t.trackId ∧ s.hostHaloId = t.hostHaloId ∧ s.hostHaloId ≠ nullHalo ∧
      1 < s.nbound ∧ 1 < t.nbound ∧ ∃ x ∈ boundIds s, x ∈ boundIds t :=
  ⟨rPar_ok _, rRun2, by decide +kernel⟩

/-- C30, what does not hold: in builds where particles are consumed (not `DM_ONLY`), a subhalo that loses its
bound particles except one is an orphan with several particles; masking passes it by, and unbinding
may resolve it again with particles that another subhalo of the host also has bound. -/
theorem C30_consumed_shares : (rPar true).Ok ∧ Run (rPar true) [⟨2, rD2'⟩, ⟨2, rD1⟩, ⟨2, rD0⟩] ∧
    ∃ s ∈ rD2'.refined 0, ∃ t ∈ rD2'.refined 0, s.trackId ≠ t.trackId ∧ s.hostHaloId = t.hostHaloId ∧ s.hostHaloId ≠ nullHalo ∧
      1 < s.nbound ∧ 1 < t.nbound ∧ ∃ x ∈ boundIds s, x ∈ boundIds t :=
  ⟨rPar_ok _, rRun2', by decide +kernel⟩

end HBT.Props
