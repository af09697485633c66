import Verif.Lemmas.SpmdPartition
import Verif.Lemmas.SpmdExchange
import Verif.Lemmas.SpmdHosts
import Verif.Lemmas.SpmdNest
import Verif.Model.SpmdMain
set_option linter.unusedSectionVars false
/-!
# The programs of the main loop do what the model for all processes says
-/
namespace HBT.Spmd
open HBT HBT.Model HBT.Spec
variable {P : Nat} {K D E S R α : Type}

theorem endRound_runs {maxIo ireader : Int} : ∃ i', Runs (fun _ : Fin P => endRound maxIo ireader) (fun _ => i') := by
  unfold endRound
  by_cases h : ireader = maxIo
  · simp only [if_pos h]
    exact ⟨0, runs_barrier.bind (Runs.ret _)⟩
  · simp only [if_neg h]
    exact ⟨_, Runs.ret _⟩

theorem turns_loop {maxIo : Int} {act : Fin P → α → Outcome α} {a a' : Fin P → α} (h : ∀ r, act r (a r) = .ok (a' r)) :
    ∀ n i ireader, i + n = P →
      Runs (fun r => turns maxIo r (act r) n i ireader (if r.val < i then a' r else a r)) a' := by
  intro n
  induction n with
  | zero =>
    intro i ireader hi
    have : (fun r : Fin P => turns maxIo r (act r) 0 i ireader (if r.val < i then a' r else a r)) = fun r => .ret (a' r) := by
      funext r
      rw [if_pos (by omega), turns]
    rw [this]
    exact Runs.ret _
  | succ n ih =>
    intro i ireader hi
    simp only [turns]
    obtain ⟨i', hr⟩ := endRound_runs (P := P) (maxIo := maxIo) (ireader := ireader)
    refine hr.bind ?_
    refine Runs.lift_bind (a := fun r => if r.val < i + 1 then a' r else a r) (fun r => ?_) (ih (i + 1) (i' + 1) (by omega))
    by_cases e : i = r.val
    · rw [if_pos e, if_neg (by omega), if_pos (by omega), h]
    · rw [if_neg e]
      by_cases e' : r.val < i
      · rw [if_pos e', if_pos (by omega)]
      · rw [if_neg e', if_neg (by omega)]

/-- Each process gets its turn. -/
theorem turns_runs {maxIo : Int} {act : Fin P → α → Outcome α} {a a' : Fin P → α} (h : ∀ r, act r (a r) = .ok (a' r)) :
    Runs (fun r => turns maxIo r (act r) P 0 0 (a r)) a' := by
  have := turns_loop (maxIo := maxIo) h P 0 0 (by omega)
  simpa using this

theorem rank0_eq (r q : Fin P) : rank0 r = rank0 q := rfl

theorem totalSubs_eq (st : Fin P → List (Sub K D)) : (List.ofFn (fun r => (st r).length)).foldl (fun a b => a + b) 0 = totalSubs st := by
  rw [foldl_add_sum, totalSubs]
  congr 1
  rw [List.map_ofFn]
  rfl

theorem loadCatalogue_runs {maxIo : Int} {junk : Fin P → Nat} {w : Want} {blank : D} {minIndex index snapId : Int} {disk : Disk K D}
    {ld : Fin P → List (Sub K D)} (h : loadSubs P w blank minIndex index snapId disk = .ok ld) :
    Runs (fun r => loadCatalogue maxIo (junk r) w blank minIndex index snapId disk r) ld := by
  cases P with
  | zero => exact Runs.none rfl _ _
  | succ P =>
  unfold loadSubs at h
  unfold loadCatalogue
  by_cases hi : index < minIndex
  · rw [if_pos hi] at h
    simp only [if_pos hi]
    cases h
    exact Runs.ret _
  · rw [if_neg hi] at h
    simp only [if_neg hi]
    cases hd : disk.sub 0 with
    | none => rw [hd] at h; cases h
    | some f =>
      rw [hd] at h
      obtain ⟨ld', h1, h⟩ := bind_eq_ok h
      split at h
      · cases h
      rename_i htot
      cases h
      refine Runs.lift_bind (a := fun r => if r = 0 then (f.numberOfFiles, f.numAll) else (junk r, junk r)) (fun r => ?_) ?_
      · unfold loadHeader
        rw [show rank0 r = 0 from rfl, hd]
        by_cases e : r = 0
        · simp [e]
        · simp [e]
      refine Runs.bind (runs_bcast1 (root := (0 : Fin (P + 1)))) ?_
      simp only [if_true]
      refine Runs.bind (turns_runs (a' := ld) (fun r => ?_)) ?_
      · have := allRanks_inv h1 r
        obtain ⟨t, e1, e2⟩ := bind_eq_ok this
        rw [loadOwn, e1, Outcome.bind_ok, e2, Outcome.bind_ok, List.nil_append]
      refine Runs.bind (runs_reduce1 (root := (0 : Fin (P + 1))) (x := fun r => (ld r).length) 0 Nat.zero_add) ?_
      refine Runs.lift_bind (a := fun _ => ()) (fun r => ?_) (Runs.ret _)
      unfold loadCheck
      rw [totalSubs_eq, show rank0 r = 0 from rfl]
      by_cases e : r = 0
      · simp only [e, decide_true, if_true]
        rw [if_neg htot]
      · simp [e]

theorem saveCatalogue_runs {maxIo snap snapId : Int} {st : Fin P → List (Sub K D)} {log : Fin P → Written K D}
    {f : Fin P → SubFile K D} {g : Fin P → List (List Int)} (hf : ∀ r, writeSub snapId P (totalSubs st) (st r) = .ok (f r))
    (hg : ∀ r, writeSrc (st r) = .ok (g r)) :
    Runs (fun r => saveCatalogue maxIo snap snapId r (st r) (log r)) (fun r => log r ++ [(snap, f r, g r)]) := by
  unfold saveCatalogue
  refine Runs.bind (runs_allreduce1 (x := fun r => (st r).length) 0 Nat.zero_add) ?_
  rw [totalSubs_eq]
  refine turns_runs (fun r => ?_)
  rw [saveOwn, hf, Outcome.bind_ok, hg, Outcome.bind_ok]

theorem place_runs {b : Build K D S} {w : SnapInput K D E S R P} {x : (Fin P → SnapRank D) × List Int} (h : placeParticles b w = .ok x) :
    Runs (fun r => place b r (own w r)) (fun r => (x.1 r, x.2)) := by
  unfold placeParticles at h
  obtain ⟨y, h1, h⟩ := bind_eq_ok h
  obtain ⟨snap, h2, h⟩ := bind_eq_ok h
  cases h
  unfold place
  refine Runs.bind (exchangeParts_runs (new := y.1) (ranges := y.2) h1) ?_
  exact Runs.lift_bind (fun r => allRanks_inv h2 r) (Runs.ret _)

theorem renewHalos_runs {b : Build K D S} {ranges : List Int} {snap : Fin P → SnapRank D} {halos res : Fin P → List (HaloRec S (Particle D))}
    (h : updateHalos b ranges snap halos = .ok res) : Runs (fun r => renewHalos b ranges (snap r) (halos r)) res := by
  unfold updateHalos at h
  unfold renewHalos
  by_cases hf : b.fullGroups = true
  · rw [if_pos hf] at h
    simp only [if_pos hf]
    cases h
    exact Runs.ret _
  · rw [if_neg hf] at h
    simp only [if_neg hf]
    obtain ⟨x, h1, h⟩ := bind_eq_ok h
    obtain ⟨halos', h2, h⟩ := bind_eq_ok h
    refine Runs.bind (query_runs h1) ?_
    exact Runs.lift_bind (fun r => allRanks_inv h2 r) (spreadHalos_runs h)

theorem renewSubs_runs [MassSum K] {b : Build K D S} {ranges : List Int} {snap : Fin P → SnapRank D} {subs res : Fin P → List (Sub K D)}
    (h : updateSubs b ranges snap subs = .ok res) : Runs (fun r => renewSubs b ranges (snap r) (subs r)) res := by
  unfold updateSubs at h
  obtain ⟨x, h1, h⟩ := bind_eq_ok h
  unfold renewSubs
  exact Runs.bind (query_runs h1) (Runs.lift (fun r => allRanks_inv h r))

theorem rank0_reduce {x : Fin P → Nat} : ∃ y : Fin P → Option Nat, Runs (fun r => reduce1 (fun a b => a + b) (rank0 r) (x r)) y := by
  cases P with
  | zero => exact ⟨fun r => r.elim0, Runs.none rfl _ _⟩
  | succ P => exact ⟨_, runs_reduce1 (root := (0 : Fin (P + 1))) 0 Nat.zero_add⟩

theorem inputStage_runs [MassSum K] {b : Build K D S} {w : SnapInput K D E S R P} {prev : Fin P → List (Sub K D)}
    {x : (Fin P → SnapRank D) × List Int} {halos : Fin P → List (HaloRec S (Particle D))} {subs : Fin P → List (Sub K D)}
    (h1 : placeParticles b w = .ok x) (h2 : updateHalos b x.2 x.1 w.halos = .ok halos) (h3 : updateSubs b x.2 x.1 prev = .ok subs) :
    Runs (fun r => inputStage b r (own w r) (prev r)) (fun r => (x.1 r, halos r, subs r)) := by
  unfold inputStage tick
  refine Runs.bind runs_barrier ?_
  refine Runs.bind (place_runs h1) ?_
  obtain ⟨y, hy⟩ := rank0_reduce (x := fun r => (w.halos r).length)
  refine Runs.bind hy ?_
  refine Runs.bind runs_barrier ?_
  refine Runs.bind (renewHalos_runs h2) ?_
  refine Runs.bind runs_barrier ?_
  exact Runs.bind (renewSubs_runs h3) (Runs.ret _)

theorem prepareStage_runs [MassSum K] [Mul K] [LT K] [DecidableLT K] [LT R] [DecidableLT R] {fuel : Nat} {b : Build K D S}
    {w : SnapInput K D E S R P} {snap : Fin P → SnapRank D} {halos : Fin P → List (HaloRec S (Particle D))}
    {subs : Fin P → List (Sub K D)} {p : Fin P → Prepared K D S} (hf : ∀ r, (subs r).length + 1 < fuel)
    (h : prepare b w snap halos subs = .ok p) :
    Runs (fun r => prepareStage fuel b r (own w r) (snap r) (halos r) (subs r)) p := by
  unfold prepare at h
  obtain ⟨hosted, h1, h⟩ := bind_eq_ok h
  unfold prepareStage
  exact Runs.bind (assign_runs hf h1) (Runs.lift (fun r => allRanks_inv h r))

theorem finishStage_runs [LE K] [DecidableLE K] [MassSum K] [LT E] [DecidableLT E] [Zero E] {b : Build K D S} (hc : 0 < b.nestChunk)
    {w : SnapInput K D E S R P} {p : Fin P → Prepared K D S} {res : Fin P → List (Sub K D)} (h : finish b w p = .ok res) :
    Runs (fun r => finishStage b r (own w r) (p r)) res := by
  unfold finish at h
  obtain ⟨nested, h1, h⟩ := bind_eq_ok h
  obtain ⟨masked, h2, h⟩ := bind_eq_ok h
  obtain ⟨merged, h3, h⟩ := bind_eq_ok h
  have h4 : ∀ r, ∃ refined, refineRank b w r (p r) (nested r).2 (masked r) = .ok refined ∧
      mergeRank b w r (p r) (nested r).2 refined = .ok (merged r) := by
    intro r
    have := allRanks_inv h3 r
    unfold refineMerge at this
    obtain ⟨x, e1, e2⟩ := bind_eq_ok this
    exact ⟨x, e1, e2⟩
  choose refined e1 e2 using h4
  unfold finishStage tick
  refine Runs.bind (nest_runs hc h1) ?_
  refine Runs.lift_bind (fun r => allRanks_inv h2 r) ?_
  refine Runs.bind runs_barrier ?_
  refine Runs.lift_bind (a := refined) (fun r => e1 r) ?_
  refine Runs.bind runs_barrier ?_
  refine Runs.lift_bind (a := merged) (fun r => e2 r) ?_
  refine Runs.bind runs_barrier ?_
  exact update_runs h

variable [LE K] [DecidableLE K] [LT K] [DecidableLT K] [MassSum K] [Mul K] [LT R] [DecidableLT R] [LT E] [DecidableLT E] [Zero E]

theorem iterate_runs {b : Build K D S} (hc : 0 < b.nestChunk) {w : SnapInput K D E S R P} {prev res : Fin P → List (Sub K D)}
    (h : iteration b w prev = .ok res) : ∃ N, ∀ fuel, N ≤ fuel → Runs (fun r => iterate fuel b r (own w r) (prev r)) res := by
  unfold iteration at h
  obtain ⟨x, h1, h⟩ := bind_eq_ok h
  obtain ⟨halos, h2, h⟩ := bind_eq_ok h
  obtain ⟨subs, h3, h⟩ := bind_eq_ok h
  obtain ⟨p, h4, h⟩ := bind_eq_ok h
  refine ⟨totalSubs subs + 2, fun fuel hf => ?_⟩
  unfold iterate tick
  refine Runs.bind (inputStage_runs h1 h2 h3) ?_
  refine Runs.bind runs_barrier ?_
  refine Runs.bind (prepareStage_runs (fun r => ?_) h4) (finishStage_runs hc h)
  have : (subs r).length ≤ totalSubs subs := by
    unfold totalSubs
    exact List.le_sum_of_mem (List.mem_map_of_mem ((List.mem_ofFn' _ _).2 ⟨r, rfl⟩))
  dsimp only
  omega

omit [LE K] [DecidableLE K] [LT K] [DecidableLT K] [MassSum K] [Mul K] in
theorem saveOps_sub {snapId : Int} {st : Fin P → List (Sub K D)} {r : Fin P} {ops : List (WriteOp P)} : ∀ {d d' : Disk K D},
    saveOps snapId st ops d = .ok d' →
    (.sub r ∈ ops ∨ ∃ f, writeSub snapId P (totalSubs st) (st r) = .ok f ∧ d.sub r.val = some f) →
    ∃ f, writeSub snapId P (totalSubs st) (st r) = .ok f ∧ d'.sub r.val = some f := by
  induction ops with
  | nil =>
    intro d d' h hr
    cases h
    rcases hr with h | h
    · cases h
    · exact h
  | cons op ops ih =>
    intro d d' h hr
    rw [saveOps, List.foldlM_cons] at h
    obtain ⟨d1, h1, h⟩ := bind_eq_ok h
    refine ih h ?_
    cases op with
    | src q =>
      rw [perform] at h1
      obtain ⟨f, _, h1⟩ := bind_eq_ok h1
      cases h1
      rcases hr with h | h
      · rcases List.mem_cons.1 h with h | h
        · cases h
        · exact .inl h
      · exact .inr h
    | sub q =>
      rw [perform] at h1
      obtain ⟨f, h2, h1⟩ := bind_eq_ok h1
      cases h1
      by_cases e : r = q
      · subst e
        exact .inr ⟨f, h2, if_pos rfl⟩
      · rcases hr with h | ⟨f', h3, h4⟩
        · rcases List.mem_cons.1 h with h | h
          · injection h with h; exact absurd h e
          · exact .inl h
        · refine .inr ⟨f', h3, ?_⟩
          show (if r.val = q.val then some f else d.sub r.val) = _
          rw [if_neg (fun h => e (Fin.ext h))]
          exact h4

omit [LE K] [DecidableLE K] [LT K] [DecidableLT K] [MassSum K] [Mul K] in
theorem saveOps_src {snapId : Int} {st : Fin P → List (Sub K D)} {r : Fin P} {ops : List (WriteOp P)} : ∀ {d d' : Disk K D},
    saveOps snapId st ops d = .ok d' →
    (.src r ∈ ops ∨ ∃ f, writeSrc (st r) = .ok f ∧ d.src r.val = some f) →
    ∃ f, writeSrc (st r) = .ok f ∧ d'.src r.val = some f := by
  induction ops with
  | nil =>
    intro d d' h hr
    cases h
    rcases hr with h | h
    · cases h
    · exact h
  | cons op ops ih =>
    intro d d' h hr
    rw [saveOps, List.foldlM_cons] at h
    obtain ⟨d1, h1, h⟩ := bind_eq_ok h
    refine ih h ?_
    cases op with
    | sub q =>
      rw [perform] at h1
      obtain ⟨f, _, h1⟩ := bind_eq_ok h1
      cases h1
      rcases hr with h | h
      · rcases List.mem_cons.1 h with h | h
        · cases h
        · exact .inl h
      · exact .inr h
    | src q =>
      rw [perform] at h1
      obtain ⟨f, h2, h1⟩ := bind_eq_ok h1
      cases h1
      by_cases e : r = q
      · subst e
        exact .inr ⟨f, h2, if_pos rfl⟩
      · rcases hr with h | ⟨f', h3, h4⟩
        · rcases List.mem_cons.1 h with h | h
          · injection h with h; exact absurd h e
          · exact .inl h
        · refine .inr ⟨f', h3, ?_⟩
          show (if r.val = q.val then some f else d.src r.val) = _
          rw [if_neg (fun h => e (Fin.ext h))]
          exact h4

theorem session_other {b : Build K D S} {xs : List (SnapInput K D E S R P × List (WriteOp P))} : ∀ {st st' : Fin P → List (Sub K D)}
    {disks disks' : Int → Disk K D}, session b xs st disks = .ok (st', disks') → ∀ i, i ∉ xs.map (fun x => x.1.snap) → disks' i = disks i := by
  induction xs with
  | nil => intro st st' disks disks' h i _; cases h; rfl
  | cons x xs ih =>
    intro st st' disks disks' h i hi
    rw [session] at h
    obtain ⟨y, h1, h⟩ := bind_eq_ok h
    rw [List.map_cons, List.mem_cons, not_or] at hi
    rw [ih h i hi.2]
    rw [takeSnapshot] at h1
    obtain ⟨out, _, h1⟩ := bind_eq_ok h1
    obtain ⟨d, _, h1⟩ := bind_eq_ok h1
    cases h1
    exact if_neg hi.1

/-- The files in the log of process `r` are those in the directories. -/
def Logged (disks : Int → Disk K D) (r : Fin P) (log : Written K D) : Prop :=
  ∀ e ∈ log, (disks e.1).sub r.val = some e.2.1 ∧ (disks e.1).src r.val = some e.2.2

theorem loop_runs {b : Build K D S} (hc : 0 < b.nestChunk) {xs : List (SnapInput K D E S R P × List (WriteOp P))}
    (hops : ∀ x ∈ xs, ∀ r, .sub r ∈ x.2 ∧ .src r ∈ x.2) (hd : (xs.map (fun x => x.1.snap)).Nodup) :
    ∀ {st st' : Fin P → List (Sub K D)} {disks disks' : Int → Disk K D}, session b xs st disks = .ok (st', disks') →
    ∃ N, ∃ new : Fin P → Written K D, (∀ r, (new r).map Prod.fst = xs.map (fun x => x.1.snap) ∧ Logged disks' r (new r)) ∧
      ∀ fuel, N ≤ fuel → ∀ (maxIo : Int) (log : Fin P → Written K D),
        Runs (fun r => loop fuel maxIo b r (xs.map (fun x => own x.1 r)) (st r) (log r)) (fun r => (st' r, log r ++ new r)) := by
  induction xs with
  | nil =>
    intro st st' disks disks' h
    cases h
    refine ⟨0, fun _ => [], fun r => ⟨rfl, fun e he => by cases he⟩, fun fuel _ maxIo log => ?_⟩
    simp only [List.map_nil, loop, List.append_nil]
    exact Runs.ret _
  | cons x xs ih =>
    intro st st' disks disks' h
    rw [session] at h
    obtain ⟨y, h1, h⟩ := bind_eq_ok h
    rw [takeSnapshot] at h1
    obtain ⟨out, e1, h1⟩ := bind_eq_ok h1
    obtain ⟨d, e2, h1⟩ := bind_eq_ok h1
    cases h1
    rw [List.map_cons, List.nodup_cons] at hd
    obtain ⟨N1, hN1⟩ := iterate_runs hc e1
    obtain ⟨N2, new, hnew, hN2⟩ := ih (fun x hx => hops x (by simp [hx])) hd.2 h
    have hx := hops x (by simp)
    have hf := fun r => saveOps_sub (r := r) e2 (.inl (hx r).1)
    have hg := fun r => saveOps_src (r := r) e2 (.inl (hx r).2)
    choose f hf1 hf2 using hf
    choose g hg1 hg2 using hg
    have hsame : disks' x.1.snap = d := by
      rw [session_other h _ hd.1]
      exact if_pos rfl
    refine ⟨max N1 N2, fun r => (x.1.snap, f r, g r) :: new r, fun r => ⟨?_, ?_⟩, fun fuel hfuel maxIo log => ?_⟩
    · rw [List.map_cons, List.map_cons, (hnew r).1]
    · intro e he
      rcases List.mem_cons.1 he with rfl | he
      · dsimp only
        rw [hsame]
        exact ⟨hf2 r, hg2 r⟩
      · exact (hnew r).2 e he
    · simp only [List.map_cons, loop, tick]
      refine Runs.bind (hN1 fuel (by omega)) ?_
      refine Runs.bind runs_barrier ?_
      refine Runs.bind (saveCatalogue_runs hf1 hg1) ?_
      refine Runs.bind runs_barrier ?_
      have := hN2 fuel (by omega) maxIo (fun r => log r ++ [(x.1.snap, f r, g r)])
      simpa using this

theorem mainLoop_runs {b : Build K D S} (hc : 0 < b.nestChunk) {start : Int}
    {xs : List (SnapInput K D E S R P × List (WriteOp P))} (hops : ∀ x ∈ xs, ∀ r, .sub r ∈ x.2 ∧ .src r ∈ x.2)
    (hd : (xs.map (fun x => x.1.snap)).Nodup) {disks disks' : Int → Disk K D} {st st' : Fin P → List (Sub K D)}
    (h1 : launch P b start disks = .ok st) (h2 : session b xs st disks = .ok (st', disks')) :
    ∃ N, ∃ log : Fin P → Written K D, (∀ r, (log r).map Prod.fst = xs.map (fun x => x.1.snap) ∧ Logged disks' r (log r)) ∧
      ∀ fuel, N ≤ fuel → ∀ (maxIo : Int) (junk : Fin P → Nat),
        Runs (fun r => mainLoop fuel maxIo (junk r) b start disks r (xs.map (fun x => own x.1 r))) (fun r => (st' r, log r)) := by
  obtain ⟨N, new, hnew, hN⟩ := loop_runs hc hops hd h2
  refine ⟨N, new, hnew, fun fuel hf maxIo junk => ?_⟩
  unfold mainLoop
  refine Runs.bind (loadCatalogue_runs h1) ?_
  simpa using hN fuel hf maxIo (fun _ => [])

end HBT.Spmd
