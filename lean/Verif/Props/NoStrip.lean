import Verif.Lemmas.NoStripRun
import Verif.Lemmas.Whole
import Verif.Props.Main
/-!
# C70: the build without stripping
-/
set_option linter.unusedSectionVars false
namespace HBT.Props
open HBT HBT.Model HBT.Spec HBT.MainLoop HBT.NoStrip
variable {K D E S R : Type}

/-- C70. In the build `HBT.nostrip`, `Unbind` never takes a particle away: a subhalo with at least `MinNumPartOfSub` particles keeps
them all as bound particles, lives and is free of any sink, and its particles are in the order of their energies (of the energies
inside the core, for the first ones, if the core is refined); one with less becomes an orphan whose most bound particle is the one
that it was, dead since this snapshot if it was not dead before. The bound mass is that of the bound particles. -/
theorem C70_unbind [LinearOrder E] [Zero E] [MassSum K] {cfg : UnbindConfig} {env : UnbindEnv K D E} (henv : EnvOk env)
    (hprec : Stops cfg.fl cfg.prec) (hmin : 2 ≤ cfg.minNum) (snap : Int) (s : Sub K D) :
    ∃ s', unbindFullNoStrip cfg env snap s = .ok s' ∧ SameTrack s s' ∧ s'.particles.Perm s.particles ∧ BoundMass env.mass s' ∧
      (cfg.minNum ≤ s.particles.length →
        s'.nbound = s'.particles.length ∧ s'.snapDeath = nullSnap ∧ s'.sinkTrackId = nullTrack ∧
        s'.snapSink = (if s.sinkTrackId ≠ nullTrack then nullSnap else s.snapSink) ∧
        ∃ pids : List Nat, pids.Perm (List.range s.particles.length) ∧
          List.Forall₂ (fun i p => (if 0 < cfg.maxSample ∧ cfg.maxSample < s.particles.length then env.shuffle s.particles else s.particles)[i]? = some p)
            pids s'.particles ∧
          (¬ (0 < cfg.maxSample ∧ cfg.refine ∧ cfg.maxSample < s.particles.length) →
            pids.Pairwise (fun a b => env.energy 0 a ≤ env.energy 0 b)) ∧
          ((0 < cfg.maxSample ∧ cfg.refine ∧ cfg.maxSample < s.particles.length) →
            (pids.take cfg.maxSample).Pairwise (fun a b => env.inner a ≤ env.inner b) ∧
            (∀ a ∈ pids.take cfg.maxSample, ∀ b ∈ pids.drop cfg.maxSample, env.energy 0 a ≤ env.energy 0 b) ∧
            (pids.drop cfg.maxSample).Pairwise (fun a b => env.energy 0 a ≤ env.energy 0 b))) ∧
      (s.particles.length < cfg.minNum →
        s'.nbound = min 1 s.particles.length ∧ s'.particles.head?.map Particle.id = s.particles.head?.map Particle.id ∧
        s'.snapDeath = (if s.snapDeath = nullSnap then snap else s.snapDeath) ∧
        s'.sinkTrackId = s.sinkTrackId ∧ s'.snapSink = s.snapSink) := by
  obtain ⟨s', e, h1, h2, h3, h4⟩ := unbind_spec (cfg := cfg) (capEnv_ok henv) hprec hmin (snap := snap) s (Nat.lt_succ_self _)
  have hlen := h2.length_eq
  refine ⟨s', ?_, h1, h2, h3, fun hn => ?_, fun hn => ?_⟩
  · rw [unbindFullNoStrip, unbind_noStrip henv.sort hprec]
    exact e
  · rcases h4 with ⟨last, pids, hb, hs, ho, hr⟩ | h4
    · have hpl := hb.from_.length_eq
      have hd : pids.drop s'.nbound = [] := by
        rw [List.eq_nil_iff_forall_not_mem]
        intro j hj
        obtain ⟨k, _, hk⟩ := hb.unbound j hj
        exact absurd (capEnv_negative env k j) (not_lt.2 hk)
      have hw : s'.nbound = s'.particles.length := by
        have h5 := congrArg List.length hd
        rw [List.length_drop, List.length_nil] at h5
        have := hb.le
        omega
      have ht : pids.take s'.nbound = pids := List.take_of_length_le (by omega)
      have hsrc : (unbindSource cfg (capEnv env) s.particles).length = s.particles.length := by
        unfold unbindSource
        split
        · exact (henv.shuffle _).length_eq
        · rfl
      refine ⟨hw, hb.alive, hb.free, hs, pids, by rw [← hsrc]; exact hb.perm, hb.from_, fun hc => ?_, fun hc => ?_⟩
      · rw [ht] at ho
        rw [show s'.nbound = s.particles.length by omega] at ho
        exact (ho hc).imp (fun h => capE_le.1 h)
      · rw [ht] at hr
        rw [show s'.nbound = s.particles.length by omega] at hr
        obtain ⟨r1, r2, r3⟩ := hr hc
        exact ⟨r1.imp (fun h => capE_le.1 h), fun a ha b hb => capE_le.1 (r2 a ha b hb), r3.imp (fun h => capE_le.1 h)⟩
    · obtain ⟨last, hf⟩ := h4.few
      have := hf (List.range s.particles.length) List.nodup_range (fun i hi => ⟨List.mem_range.1 hi, fun k _ => capEnv_negative env k i⟩)
      rw [List.length_range] at this
      omega
  · rcases h4 with ⟨last, pids, hb, _⟩ | h4
    · have h5 := hb.enough
      have h6 := hb.le
      omega
    · exact ⟨h4.one, h4.first, h4.dead, h4.sink⟩

/-! ## Whole runs -/

/-- As `Reach`, for the executable of this build: the directories after any number of sessions, and the inputs of the snapshots that
are complete. -/
inductive ReachNoStrip [LE K] [DecidableLE K] [LT K] [DecidableLT K] [MassSum K] [Mul K] [LT R] [DecidableLT R] [LE E] [LT E]
    [DecidableLT E] [Zero E] (b : Build K D S) (sim : Int → List Int) : (Int → Disk K D) → List (Σ P, SnapInput K D E S R P) → Prop
  | start (disks : Int → Disk K D) : ReachNoStrip b sim disks []
  | session {disks : Int → Disk K D} {hist : List (Σ P, SnapInput K D E S R P)} (h : ReachNoStrip b sim disks hist) {P : Nat} (hP : 0 < P) {n : Nat}
      (hn : n ≤ hist.length) {xs : List (SnapInput K D E S R P × List (WriteOp P))} (hx : Consecutive b sim (b.minIndex + n) xs)
      {st st' : Fin P → List (Sub K D)} {disks' : Int → Disk K D} (e : launch P b (b.minIndex + n) disks = .ok st)
      (e' : sessionNoStrip b xs st disks = .ok (st', disks')) (junk : Disk K D) :
      ReachNoStrip b sim (fun i => if i = b.minIndex + n + xs.length then junk else disks' i)
        ((xs.reverse.map (fun x => ⟨P, x.1⟩)) ++ hist.drop (hist.length - n))

section
variable [LinearOrder K] [MassSum K] [Mul K] [LinearOrder R] [LinearOrder E] [Zero E]

/-- The inputs with negative energies. -/
noncomputable def capSnap (x : Σ P, SnapInput K D E S R P) : Σ P, SnapInput K D (Capped E) S R P := ⟨x.1, capInput x.2⟩

theorem consecutive_cap {b : Build K D S} {sim : Int → List Int} {P : Nat} {a : Int} {xs : List (SnapInput K D E S R P × List (WriteOp P))}
    (h : Consecutive b sim a xs) : Consecutive b sim a (xs.map (fun x => (capInput x.1, x.2))) := by
  induction h with
  | nil a => exact .nil a
  | cons snap ok ops_ _ ih => exact .cons snap (capInput_ok ok) ops_ ih

theorem consecutive_solvers {b : Build K D S} {sim : Int → List Int} {P : Nat} {a : Int} {xs : List (SnapInput K D E S R P × List (WriteOp P))}
    (h : Consecutive b sim a xs) : ∀ x ∈ xs, SolversOk x.1 := by
  induction h with
  | nil a => intro x hx; cases hx
  | cons snap ok ops_ _ ih =>
    intro x hx
    rcases List.mem_cons.1 hx with rfl | hx
    · exact fun r st i => ⟨(ok.env r st i).1, (ok.env' r st i).1⟩
    · exact ih x hx

theorem session_cap {b : Build K D S} (hb : BuildOk b) {sim : Int → List Int} {P : Nat} {a : Int}
    {xs : List (SnapInput K D E S R P × List (WriteOp P))} (h : Consecutive b sim a xs) :
    sessionNoStrip b xs = session b (xs.map (fun x => (capInput x.1, x.2))) :=
  session_noStrip (params_ok hb).prec xs (consecutive_solvers h)

theorem reach_cap {b : Build K D S} (hb : BuildOk b) {sim : Int → List Int} {disks : Int → Disk K D} {hist : List (Σ P, SnapInput K D E S R P)}
    (h : ReachNoStrip b sim disks hist) : Reach b sim disks (hist.map capSnap) := by
  induction h with
  | start disks => exact .start disks
  | @session disks hist h P hP n hn xs hx st st' disks' e e' junk ih =>
    have e1 := e'
    rw [session_cap hb hx] at e1
    have := Reach.session ih hP (n := n) (by rw [List.length_map]; exact hn) (consecutive_cap hx) e e1 junk
    simp only [List.length_map] at this
    rw [List.map_append, List.map_drop]
    rw [List.map_map]
    rw [← List.map_reverse, List.map_map] at this
    exact this

theorem archive_negative {b : Build K D S} {sim : Int → List Int} {disks : Int → Disk K D} {hist : List (Σ P, SnapInput K D E S R P)}
    {tr : List (Σ P, Snapshot K D (Capped E) P)} (h : Archive b sim disks (hist.map capSnap) tr) :
    ∀ y ∈ tr, ∀ r i k j, (y.2.env r i).energy k j < 0 ∧ (y.2.env' r i).energy k j < 0 := by
  intro y hy r i k j
  obtain ⟨l, hl⟩ := List.getElem?_of_mem hy
  obtain ⟨hl2, el⟩ := List.getElem?_eq_some_iff.1 hl
  have h1 : l < (hist.map capSnap).length := by rw [h.kept.length_eq]; exact hl2
  have hst : Stored b sim disks (hist.map capSnap)[l] tr[l] := (List.forall₂_iff_get.1 h.kept).2 l h1 hl2
  rw [el, List.getElem_map] at hst
  obtain ⟨P, w, d, e1, rfl, _, _, _, _, hs, _⟩ := hst
  obtain ⟨P0, w0⟩ := hist[l]'(by simpa using h1)
  cases e1
  show (d.env r i).energy k j < 0 ∧ (d.env' r i).energy k j < 0
  rw [(hs r).1, (hs r).2]
  exact ⟨capEnv_negative _ k j, capEnv_negative _ k j⟩

/-- C70. This executable never fails either: whatever sessions there have been, the next one, from any snapshot up to the first that
is not complete, with any number of processes, loads the last catalogue and processes all its snapshots. -/
theorem C70_never_fails {b : Build K D S} (hb : BuildOk b) {sim : Int → List Int} (hsim : Persistent b sim) {disks : Int → Disk K D}
    {hist : List (Σ P, SnapInput K D E S R P)} (h : ReachNoStrip b sim disks hist) {P : Nat} (hP : 0 < P) {n : Nat} (hn : n ≤ hist.length)
    {xs : List (SnapInput K D E S R P × List (WriteOp P))} (hx : Consecutive b sim (b.minIndex + n) xs) :
    ∃ st st' disks', launch P b (b.minIndex + n) disks = .ok st ∧ sessionNoStrip b xs st disks = .ok (st', disks') := by
  rw [session_cap hb hx]
  exact C58_never_fails hb hsim (reach_cap hb h) hP (by rw [List.length_map]; exact hn) (consecutive_cap hx)

/-- C70. Every catalogue of this executable loads, with any number of processes, and in it: the track ids are `0`, …, `N-1`, each
once; every particle of a track is bound; each track has at least `MinNumPartOfSub` particles or is an orphan with at most one; all
particles exist in this snapshot; the host is one of the groups of this snapshot, or none. -/
theorem C70_catalogue {b : Build K D S} (hb : BuildOk b) {sim : Int → List Int} (hsim : Persistent b sim) {disks : Int → Disk K D}
    {hist : List (Σ P, SnapInput K D E S R P)} (h : ReachNoStrip b sim disks hist) {x : Σ P, SnapInput K D E S R P} (hx : x ∈ hist) {P' : Nat} (hP' : 0 < P') :
    ∃ ld : Fin P' → List (Sub K D),
      loadSubs P' .source b.blank b.minIndex x.2.snap (b.snapId x.2.snap) (disks x.2.snap) = .ok ld ∧
      (∃ N, ((everyone ld).map Sub.trackId).Perm ((List.range N).map (fun i : Nat => (i : Int)))) ∧
      ∀ s ∈ everyone ld,
        s.nbound = s.particles.length ∧ (b.cfg.minNum ≤ s.nbound ∨ s.nbound ≤ 1) ∧
        (∀ p ∈ s.particles, p.id ∈ sim x.2.snap) ∧
        (s.hostHaloId = -1 ∨ ∃ r, ∃ g ∈ x.2.halos r, b.haloId g.shell = s.hostHaloId) := by
  have hr := reach_cap hb h
  obtain ⟨ld, e1, e2, e3⟩ := C58_catalogue hb hsim hr (List.mem_map_of_mem hx) hP'
  refine ⟨ld, e1, e2, fun s hs => ?_⟩
  obtain ⟨c1, c2, c3⟩ := e3 s hs
  refine ⟨?_, c1.imp (fun h => h.1) (fun h => h.1), c2, c3⟩
  obtain ⟨tr, ha⟩ := reach_archive hb hsim hr
  obtain ⟨k, hk⟩ := List.getElem?_of_mem hx
  have hk' : (hist.map capSnap)[k]? = some (capSnap x) := by rw [List.getElem?_map, hk]; rfl
  obtain ⟨h1, e4⟩ := List.getElem?_eq_some_iff.1 hk'
  have h2 : k < tr.length := by rw [← ha.kept.length_eq]; exact h1
  have hst : Stored b sim disks (hist.map capSnap)[k] tr[k] := (List.forall₂_iff_get.1 ha.kept).2 k h1 h2
  have hnum := ha.numbered.lt _ (List.getElem_mem h1)
  have hrun := run_drop ha.run k
  rw [List.drop_eq_getElem_cons h2] at hrun
  have hw := run_whole (params_ok hb) hrun (fun y hy => by
    rw [← List.drop_eq_getElem_cons h2] at hy
    exact archive_negative ha y (List.mem_of_mem_drop hy))
  rw [e4] at hst hnum
  generalize tr[k] = y at hst hw
  obtain ⟨Q, w, d, e5, rfl, hQ, hsnap, hold, _⟩ := hst
  obtain ⟨P0, w0⟩ := x
  cases e5
  obtain ⟨orig, q1, q2, _⟩ := load_ok hQ hP' hold .source b.blank (minIndex := b.minIndex) (index := (capInput w0).snap) hnum.1
  have e6 : loadSubs P' .source b.blank b.minIndex (capInput w0).snap (b.snapId (capInput w0).snap) (disks (capInput w0).snap) = .ok ld := e1
  rw [e6] at q2
  cases q2
  rw [everyone_map, q1] at hs
  obtain ⟨u, hu, rfl⟩ := List.mem_map.1 hs
  obtain ⟨r, hr⟩ := mem_everyone.1 hu
  have hlen : (reloaded .source b.blank u).particles.length = u.particles.length := by rw [reloaded_source]; simp [Sub.withParticles]
  rw [hlen]
  exact hw r u hr

/-- C70. Whatever sessions of this executable there have been, the catalogues of the complete snapshots are those of one run without
interruption of the main build in which every energy is negative (so everything proved of runs holds of them), with the same
numbers of processes, and each loads with any number of processes. -/
theorem C70_history {b : Build K D S} (hb : BuildOk b) {sim : Int → List Int} (hsim : Persistent b sim) {disks : Int → Disk K D}
    {hist : List (Σ P, SnapInput K D E S R P)} (h : ReachNoStrip b sim disks hist) :
    ∃ tr : List (Σ P, Snapshot K D (Capped E) P), Run (params b) tr ∧ tr.length = hist.length ∧
      (∀ y ∈ tr, ∀ r i k j, (y.2.env r i).energy k j < 0 ∧ (y.2.env' r i).energy k j < 0) ∧
      ∀ k x y, hist[k]? = some x → tr[k]? = some y →
        x.2.snap = b.minIndex + (hist.length - 1 - k : Nat) ∧ y.2.snap = x.2.snap ∧ y.1 = x.1 ∧
        ∀ P' want, 0 < P' → ∃ ld : Fin P' → List (Sub K D),
          loadSubs P' want b.blank b.minIndex x.2.snap (b.snapId x.2.snap) (disks x.2.snap) = .ok ld ∧
          everyone ld = (everyone y.2.out).map (reloaded want b.blank) := by
  obtain ⟨tr, ha⟩ := reach_archive hb hsim (reach_cap hb h)
  refine ⟨tr, ha.run, by rw [← ha.kept.length_eq, List.length_map], archive_negative ha, fun k x y hx hy => ?_⟩
  have hk' : (hist.map capSnap)[k]? = some (capSnap x) := by rw [List.getElem?_map, hx]; rfl
  obtain ⟨h1, e1⟩ := List.getElem?_eq_some_iff.1 hk'
  obtain ⟨h2, e2⟩ := List.getElem?_eq_some_iff.1 hy
  have hk : Stored b sim disks (hist.map capSnap)[k] tr[k] := (List.forall₂_iff_get.1 ha.kept).2 k h1 h2
  have hnum := ha.numbered.drop k
  rw [List.drop_eq_getElem_cons h1] at hnum
  have hs := hnum.1
  rw [List.length_drop] at hs
  rw [e1, e2] at hk
  rw [e1] at hs
  simp only [List.length_map] at hs h1
  obtain ⟨Q, w, d, e5, rfl, hQ, hsnap, hold, _⟩ := hk
  obtain ⟨P0, w0⟩ := x
  cases e5
  have hs' : w0.snap = b.minIndex + (hist.length - (k + 1) : Nat) := hs
  refine ⟨by show w0.snap = _; rw [hs']; congr 2; omega, hsnap, rfl, fun P' want hP' => ?_⟩
  obtain ⟨orig, q1, q2, _⟩ := load_ok hQ hP' hold want b.blank (minIndex := b.minIndex) (index := (capInput w0).snap)
    (by show b.minIndex ≤ w0.snap; rw [hs']; omega)
  exact ⟨_, q2, by rw [everyone_map, q1]⟩

/-- C70. Tracks never disappear. -/
theorem C70_tracks_stay {b : Build K D S} (hb : BuildOk b) {sim : Int → List Int} (hsim : Persistent b sim) {disks : Int → Disk K D}
    {hist : List (Σ P, SnapInput K D E S R P)} (h : ReachNoStrip b sim disks hist) {x y : Σ P, SnapInput K D E S R P} (hx : x ∈ hist) (hy : y ∈ hist)
    (hxy : x.2.snap ≤ y.2.snap) {P' P'' : Nat} (hP' : 0 < P') (hP'' : 0 < P'') {ldx : Fin P' → List (Sub K D)} {ldy : Fin P'' → List (Sub K D)}
    (ex : loadSubs P' .source b.blank b.minIndex x.2.snap (b.snapId x.2.snap) (disks x.2.snap) = .ok ldx)
    (ey : loadSubs P'' .source b.blank b.minIndex y.2.snap (b.snapId y.2.snap) (disks y.2.snap) = .ok ldy) :
    ∀ s ∈ everyone ldx, ∃ s' ∈ everyone ldy, s'.trackId = s.trackId :=
  C58_tracks_stay hb hsim (reach_cap hb h) (List.mem_map_of_mem hx) (List.mem_map_of_mem hy) hxy hP' hP'' ex ey

/-- C70. A session that is killed and started again writes what it would have written without interruption. -/
theorem C70_restart {b : Build K D S} (hb : BuildOk b) {sim : Int → List Int} (hsim : Persistent b sim) {disks : Int → Disk K D}
    {hist : List (Σ P, SnapInput K D E S R P)} (h : ReachNoStrip b sim disks hist) {P : Nat} (hP : 0 < P) {n : Nat} (hn : n ≤ hist.length)
    {xs ys : List (SnapInput K D E S R P × List (WriteOp P))} (hx : Consecutive b sim (b.minIndex + n) (xs ++ ys))
    {st stF st1 st1' st2 : Fin P → List (Sub K D)} {disksF disks1 disks2 : Int → Disk K D} (e : launch P b (b.minIndex + n) disks = .ok st)
    (full : sessionNoStrip b (xs ++ ys) st disks = .ok (stF, disksF)) (part : sessionNoStrip b xs st disks = .ok (st1, disks1)) (junk : Disk K D)
    (again : launch P b (b.minIndex + n + xs.length) (fun i => if i = b.minIndex + n + xs.length then junk else disks1 i) = .ok st1')
    (rest : sessionNoStrip b ys st1' (fun i => if i = b.minIndex + n + xs.length then junk else disks1 i) = .ok (st2, disks2)) :
    (∀ i, b.minIndex + n ≤ i → i < b.minIndex + n + (xs ++ ys).length → ∀ r < P,
      (disks2 i).sub r = (disksF i).sub r ∧ (disks2 i).src r = (disksF i).src r) ∧ (ys ≠ [] → st2 = stF) := by
  obtain ⟨hx1, hx2⟩ := hx.append
  have hxc := consecutive_cap hx
  rw [session_cap hb hx, List.map_append] at full
  rw [session_cap hb hx1] at part
  rw [session_cap hb hx2] at rest
  rw [List.map_append] at hxc
  have := C59_restart hb hsim (reach_cap hb h) hP (n := n) (by rw [List.length_map]; exact hn) hxc e full part junk
    (by rw [List.length_map]; exact again) (by rw [List.length_map]; exact rest)
  simpa only [List.length_append, List.length_map, ne_eq, List.map_eq_nil_iff] using this

end
end HBT.Props
