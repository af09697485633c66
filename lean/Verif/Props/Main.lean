import Verif.Lemmas.MainArchive
import Verif.Lemmas.Config
import Mathlib.Algebra.BigOperators.Fin
import Mathlib.Algebra.Order.BigOperators.Group.Finset
/-!
# C58, C59: the main loop, stops and restarts
-/
set_option linter.unusedSectionVars false
namespace HBT.Props
open HBT HBT.Model HBT.Spec HBT.MainLoop
variable {K D E S R : Type}

/-! ## Executions -/

/-- `sim i` are the particle ids of snapshot `i`. A particle stays in the simulation, or (in builds with gas and stars) it may
disappear, if its id then lies between two ids that are there. -/
def Persistent (b : Build K D S) (sim : Int → List Int) : Prop :=
  ∀ i, b.minIndex ≤ i → ∀ x ∈ sim i, Known b.dmOnly (sim (i + 1)) x

/-- The inputs of a session from snapshot `a` on: one snapshot after the other, and for each the order in which the files are
written, in which each process writes both of its files. -/
inductive Consecutive [LE E] (b : Build K D S) (sim : Int → List Int) {P : Nat} : Int → List (SnapInput K D E S R P × List (WriteOp P)) → Prop
  | nil (a : Int) : Consecutive b sim a []
  | cons {a : Int} {w : SnapInput K D E S R P} {ops : List (WriteOp P)} {xs : List (SnapInput K D E S R P × List (WriteOp P))}
      (snap : w.snap = a) (ok : SnapInputOk b (sim a) w) (ops_ : ∀ r, .sub r ∈ ops ∧ .src r ∈ ops) (rest : Consecutive b sim (a + 1) xs) :
      Consecutive b sim a ((w, ops) :: xs)

/-- The directories after any number of sessions, and the inputs of the snapshots that are complete, the latest first. At first the
directories hold anything. A session may begin at any snapshot up to the first that is not complete, with any number of processes;
it is killed after any number of snapshots, and the directory of the next snapshot then holds anything. -/
inductive Reach [LE K] [DecidableLE K] [LT K] [DecidableLT K] [MassSum K] [Mul K] [LT R] [DecidableLT R] [LE E] [LT E]
    [DecidableLT E] [Zero E] (b : Build K D S) (sim : Int → List Int) : (Int → Disk K D) → List (Σ P, SnapInput K D E S R P) → Prop
  | start (disks : Int → Disk K D) : Reach b sim disks []
  | session {disks : Int → Disk K D} {hist : List (Σ P, SnapInput K D E S R P)} (h : Reach b sim disks hist) {P : Nat} (hP : 0 < P) {n : Nat}
      (hn : n ≤ hist.length) {xs : List (SnapInput K D E S R P × List (WriteOp P))} (hx : Consecutive b sim (b.minIndex + n) xs)
      {st st' : Fin P → List (Sub K D)} {disks' : Int → Disk K D} (e : launch P b (b.minIndex + n) disks = .ok st)
      (e' : session b xs st disks = .ok (st', disks')) (junk : Disk K D) :
      Reach b sim (fun i => if i = b.minIndex + n + xs.length then junk else disks' i)
        ((xs.reverse.map (fun x => ⟨P, x.1⟩)) ++ hist.drop (hist.length - n))

/-! ## The invariant -/

/-- The snapshots are numbered from `m` on; the latest comes first. -/
def Numbered (m : Int) : List (Σ P, SnapInput K D E S R P) → Prop
  | [] => True
  | x :: xs => x.2.snap = m + xs.length ∧ Numbered m xs

theorem Numbered.lt {m : Int} : ∀ {hist : List (Σ P, SnapInput K D E S R P)}, Numbered m hist → ∀ x ∈ hist, m ≤ x.2.snap ∧ x.2.snap < m + hist.length
  | [], _, x, hx => by cases hx
  | y :: ys, h, x, hx => by
    rcases List.mem_cons.1 hx with rfl | hx
    · rw [h.1, List.length_cons]
      push_cast
      omega
    · have := h.2.lt x hx
      rw [List.length_cons]
      push_cast
      omega

theorem Numbered.drop {m : Int} : ∀ {hist : List (Σ P, SnapInput K D E S R P)} (k : Nat), Numbered m hist → Numbered m (hist.drop k)
  | [], k, _ => by rw [List.drop_nil]; trivial
  | _ :: _, 0, h => h
  | _ :: _, k + 1, h => h.2.drop k

/-- The snapshot `y` of a run was computed from the inputs `x`, and its catalogue is in its directory. -/
def Stored (b : Build K D S) (sim : Int → List Int) (disks : Int → Disk K D) (x : Σ P, SnapInput K D E S R P) (y : Σ P, Snapshot K D E P) : Prop :=
  ∃ (P : Nat) (w : SnapInput K D E S R P) (d : Snapshot K D E P), x = ⟨P, w⟩ ∧ y = ⟨P, d⟩ ∧ 0 < P ∧ d.snap = w.snap ∧
    Holds (b.snapId w.snap) d.out (disks w.snap) ∧ (∀ r, AllOf (Listed b (sim w.snap) w) (d.out r)) ∧
    (∀ r, d.env r = w.env r (d.masked r) ∧ d.env' r = w.env' r (d.refined r)) ∧
    ∃ halos, Groups b w halos ∧ ∀ r, d.haloIds r = (halos r).map (fun h => b.haloId h.shell)

theorem Stored.mono {b : Build K D S} {sim : Int → List Int} {disks disks' : Int → Disk K D} {x : Σ P, SnapInput K D E S R P}
    {y : Σ P, Snapshot K D E P} (h : Stored b sim disks x y) (e : disks' x.2.snap = disks x.2.snap) : Stored b sim disks' x y := by
  obtain ⟨P, w, d, rfl, rfl, h1, h2, h3, h4⟩ := h
  exact ⟨P, w, d, rfl, rfl, h1, h2, by rw [show disks' w.snap = disks w.snap from e]; exact h3, h4⟩

/-- The directories hold the catalogues of the run `tr`. -/
structure Archive [LinearOrder K] [MassSum K] [LinearOrder E] [Zero E] (b : Build K D S) (sim : Int → List Int) (disks : Int → Disk K D)
    (hist : List (Σ P, SnapInput K D E S R P)) (tr : List (Σ P, Snapshot K D E P)) : Prop where
  run : Run (params b) tr
  kept : List.Forall₂ (Stored b sim disks) hist tr
  numbered : Numbered b.minIndex hist

/-- A session can go on from `st`. -/
structure Ready {P : Nat} (b : Build K D S) (sim : Int → List Int) (hist : List (Σ P, SnapInput K D E S R P))
    (tr : List (Σ P, Snapshot K D E P)) (st : Fin P → List (Sub K D)) : Prop where
  resumed : Resumed (latest tr).2 st
  known : ∀ r, AllOf (fun p => Known b.dmOnly (sim (b.minIndex + hist.length)) p.id) (st r)

theorem Archive.mono [LinearOrder K] [MassSum K] [LinearOrder E] [Zero E] {b : Build K D S} {sim : Int → List Int} {disks disks' : Int → Disk K D}
    {hist : List (Σ P, SnapInput K D E S R P)} {tr : List (Σ P, Snapshot K D E P)} (h : Archive b sim disks hist tr)
    (e : ∀ i, i < b.minIndex + hist.length → disks' i = disks i) : Archive b sim disks' hist tr := by
  refine ⟨h.run, ?_, h.numbered⟩
  rw [List.forall₂_iff_get]
  have hk := List.forall₂_iff_get.1 h.kept
  exact ⟨hk.1, fun i h1 h2 => (hk.2 i h1 h2).mono (e _ (h.numbered.lt _ (List.get_mem _ _)).2)⟩

theorem run_drop [LinearOrder K] [MassSum K] [LinearOrder E] [Zero E] {par : Params K D} {tr : List (Σ P, Snapshot K D E P)}
    (h : Run par tr) : ∀ k, Run par (tr.drop k) := by
  induction h with
  | start => intro k; rw [List.drop_nil]; exact .start
  | next tr d h ok later comp ih =>
    intro k
    cases k with
    | zero => exact .next tr d h ok later comp
    | succ k => exact ih k

theorem Archive.drop [LinearOrder K] [MassSum K] [LinearOrder E] [Zero E] {b : Build K D S} {sim : Int → List Int} {disks : Int → Disk K D}
    {hist : List (Σ P, SnapInput K D E S R P)} {tr : List (Σ P, Snapshot K D E P)} (h : Archive b sim disks hist tr) (k : Nat) :
    Archive b sim disks (hist.drop k) (tr.drop k) :=
  ⟨run_drop h.run k, List.forall₂_drop k h.kept, h.numbered.drop k⟩

/-- The state with which a session begins. -/
theorem launch_ok [LinearOrder K] [MassSum K] [LinearOrder E] [Zero E] {b : Build K D S} {sim : Int → List Int} (hsim : Persistent b sim)
    {disks : Int → Disk K D} {hist : List (Σ P, SnapInput K D E S R P)} {tr : List (Σ P, Snapshot K D E P)} (h : Archive b sim disks hist tr)
    {P : Nat} (hP : 0 < P) : ∃ st, launch P b (b.minIndex + hist.length) disks = .ok st ∧ Ready b sim hist tr st := by
  unfold launch
  cases hk : h.kept with
  | nil =>
    refine ⟨fun _ => [], ?_, ⟨fun _ => [], ?_, fun _ => .nil⟩, fun r s hs => by cases hs⟩
    · unfold loadSubs
      rw [if_pos (by simp)]
    · have : everyone (fun _ : Fin P => ([] : List (Sub K D))) = [] := by
        unfold everyone
        rw [List.flatten_eq_nil_iff]
        intro l hl
        obtain ⟨_, rfl⟩ := (List.mem_ofFn' _ _).1 hl
        rfl
      rw [this]
      exact List.Perm.refl _
  | @cons x y hist tr hxy hrest =>
    obtain ⟨Q, w, d, rfl, rfl, hQ, _, hold, hlist, _⟩ := hxy
    have hnum : w.snap = b.minIndex + hist.length := h.numbered.1
    have e : b.minIndex + ((⟨Q, w⟩ :: hist : List (Σ P, SnapInput K D E S R P)).length : Nat) - 1 = w.snap := by
      rw [hnum, List.length_cons]; push_cast; omega
    have e' : b.minIndex + ((⟨Q, w⟩ :: hist : List (Σ P, SnapInput K D E S R P)).length : Nat) = w.snap + 1 := by omega
    rw [e]
    obtain ⟨orig, h1, h2, _⟩ := load_ok hQ hP hold .source b.blank (minIndex := b.minIndex) (index := w.snap) (by omega)
    refine ⟨_, h2, ⟨orig, by rw [h1]; exact List.Perm.refl _, fun r => ?_⟩, fun r s hs p hp => ?_⟩
    · rw [List.forall₂_map_right_iff, List.forall₂_same]
      intro s _
      refine ⟨_, reloaded_source b.blank s, ?_⟩
      rw [List.map_map]
      rfl
    · rw [e']
      obtain ⟨u, hu, rfl⟩ := List.mem_map.1 hs
      rw [reloaded_source] at hp
      obtain ⟨q, hq, rfl⟩ := List.mem_map.1 hp
      obtain ⟨r', hr'⟩ := mem_everyone.1 (h1 ▸ mem_everyone.2 ⟨r, hu⟩ : u ∈ everyone d.out)
      exact hsim w.snap (by omega) _ (hlist r' u hr' q hq).1

/-- One snapshot of a session. -/
theorem takeSnapshot_ok [LinearOrder K] [MassSum K] [Mul K] [LinearOrder R] [LinearOrder E] [Zero E] {b : Build K D S} (hb : BuildOk b)
    {sim : Int → List Int} (hsim : Persistent b sim) {disks : Int → Disk K D} {hist : List (Σ P, SnapInput K D E S R P)}
    {tr : List (Σ P, Snapshot K D E P)} (h : Archive b sim disks hist tr) {P : Nat} {st : Fin P → List (Sub K D)} (hst : Ready b sim hist tr st)
    {w : SnapInput K D E S R P} (hsnap : w.snap = b.minIndex + hist.length) (hw : SnapInputOk b (sim (b.minIndex + hist.length)) w)
    {ops : List (WriteOp P)} (hops : ∀ r, .sub r ∈ ops ∧ .src r ∈ ops) :
    ∃ (d : Snapshot K D E P) (disk : Disk K D), iteration b w st = .ok d.out ∧ (∀ r, ∀ s ∈ d.out r, s.nbound ≤ s.particles.length) ∧
      saveOps (b.snapId w.snap) d.out ops (disks w.snap) = .ok disk ∧ Holds (b.snapId w.snap) d.out disk ∧
      Archive b sim (fun i => if i = w.snap then disk else disks i) (⟨P, w⟩ :: hist) (⟨P, d⟩ :: tr) ∧
      Ready b sim (⟨P, w⟩ :: hist) (⟨P, d⟩ :: tr) d.out := by
  have hpar := params_ok hb
  have hinv := run_inv hpar h.run
  have hlater : ∀ x ∈ tr, x.2.snap < w.snap := by
    intro x hx
    obtain ⟨i, hi⟩ := List.getElem?_of_mem hx
    have hit := (List.getElem?_eq_some_iff.1 hi).1
    have hk := List.forall₂_iff_get.1 h.kept
    have hih : i < hist.length := by rw [hk.1]; exact hit
    have hkk : Stored b sim disks hist[i] tr[i] := hk.2 i hih hit
    rw [(List.getElem?_eq_some_iff.1 hi).2] at hkk
    have hl := (h.numbered.lt _ (List.getElem_mem hih)).2
    obtain ⟨Q, v, d, e1, rfl, _, e3, _⟩ := hkk
    rw [e1] at hl
    rw [hsnap]
    show d.snap < _
    rw [e3]
    exact hl
  obtain ⟨d, e1, e2, e3, e4, e5, e6, e7⟩ := iteration_step hb hw hst.resumed hinv.sound (fun r s hs => (hinv.tidy r s hs).le) hst.known
    (fun r s hs => hinv.sinkOld hw.snap hlater r s hs)
  have hrun : Run (params b) (⟨P, d⟩ :: tr) := .next tr d h.run e2 (by rw [e1]; exact hlater) e3
  have hle : ∀ r, ∀ s ∈ d.out r, s.nbound ≤ s.particles.length := fun r s hs => ((run_inv hpar hrun).tidy r s hs).le
  obtain ⟨disk, s1, s2, s3, _⟩ := saveOps_ok (b.snapId w.snap) d.out hle ops (disks w.snap)
  have hold : Holds (b.snapId w.snap) d.out disk := ⟨fun r => s2 r (hops r).1, fun r => s3 r (hops r).2⟩
  have hdisk : ∀ i, i < b.minIndex + hist.length → (fun i => if i = w.snap then disk else disks i) i = disks i := by
    intro i hi
    simp only
    rw [if_neg (by omega)]
  refine ⟨d, disk, e5, hle, s1, hold, ⟨hrun, .cons ?_ (h.mono hdisk).kept, hsnap, h.numbered⟩, Resumed.refl _, ?_⟩
  · refine ⟨P, w, d, rfl, rfl, hw.procs, e1, ?_, by rw [hsnap]; exact e6, e7⟩
    dsimp only
    rw [if_pos rfl]
    exact hold
  · intro r s hs p hp
    have := hsim (b.minIndex + hist.length) (by omega) _ (e6 r s hs p hp).1
    rw [List.length_cons]
    push_cast
    rw [← add_assoc]
    exact this

/-- A session. -/
theorem session_ok [LinearOrder K] [MassSum K] [Mul K] [LinearOrder R] [LinearOrder E] [Zero E] {b : Build K D S} (hb : BuildOk b)
    {sim : Int → List Int} (hsim : Persistent b sim) {P : Nat} {a : Int} {xs : List (SnapInput K D E S R P × List (WriteOp P))}
    (hx : Consecutive b sim a xs) : ∀ {disks : Int → Disk K D} {hist : List (Σ P, SnapInput K D E S R P)} {tr : List (Σ P, Snapshot K D E P)}
    {st : Fin P → List (Sub K D)}, Archive b sim disks hist tr → Ready b sim hist tr st → a = b.minIndex + hist.length →
    ∃ st' disks' tr', session b xs st disks = .ok (st', disks') ∧
      Archive b sim disks' ((xs.reverse.map (fun x => ⟨P, x.1⟩)) ++ hist) tr' ∧
      Ready b sim ((xs.reverse.map (fun x => ⟨P, x.1⟩)) ++ hist) tr' st' ∧
      ∀ xs0 w ops, xs = xs0 ++ [(w, ops)] → (∀ r, AllOf (Listed b (sim w.snap) w) (st' r)) ∧
        (∀ r, ∀ s ∈ st' r, s.nbound ≤ s.particles.length) ∧ Holds (b.snapId w.snap) st' (disks' w.snap) := by
  induction hx with
  | nil a => exact fun {disks hist tr st} h hst _ => ⟨st, disks, tr, rfl, h, hst, fun xs0 w ops e => by simp at e⟩
  | @cons a w ops xs snap ok ops_ rest ih =>
    intro disks hist tr st h hst ha
    subst ha
    obtain ⟨d, disk, e1, hle, e2, hold, h', hst'⟩ := takeSnapshot_ok hb hsim h hst snap ok ops_
    obtain ⟨st', disks', tr', e3, h'', hst'', hlast⟩ := ih h' hst' (by rw [List.length_cons]; push_cast; omega)
    have hl : (((w, ops) :: xs).reverse.map (fun x => (⟨P, x.1⟩ : Σ P, SnapInput K D E S R P))) ++ hist =
        xs.reverse.map (fun x => (⟨P, x.1⟩ : Σ P, SnapInput K D E S R P)) ++ (⟨P, w⟩ :: hist) := by simp
    refine ⟨st', disks', tr', ?_, by rw [hl]; exact h'', by rw [hl]; exact hst'', fun xs0 w' ops' e => ?_⟩
    · rw [session, takeSnapshot, e1, Outcome.bind_ok, e2, Outcome.bind_ok, Outcome.bind_ok]
      exact e3
    · cases xs0 with
      | nil =>
        cases e
        cases e3
        refine ⟨?_, hle, ?_⟩
        · cases h'.kept with
          | cons hk _ =>
            obtain ⟨Q, v, d', q1, q2, _, _, _, hlist, _⟩ := hk
            cases q1
            cases q2
            exact hlist
        · dsimp only
          rw [if_pos rfl]
          exact hold
      | cons x xs0 =>
        rw [List.cons_append, List.cons.injEq] at e
        exact hlast xs0 w' ops' e.2

theorem reach_archive [LinearOrder K] [MassSum K] [Mul K] [LinearOrder R] [LinearOrder E] [Zero E] {b : Build K D S} (hb : BuildOk b)
    {sim : Int → List Int} (hsim : Persistent b sim) {disks : Int → Disk K D} {hist : List (Σ P, SnapInput K D E S R P)}
    (h : Reach b sim disks hist) : ∃ tr : List (Σ P, Snapshot K D E P), Archive b sim disks hist tr := by
  induction h with
  | start disks => exact ⟨[], .start, .nil, trivial⟩
  | @session disks hist h P hP n hn xs hx st st' disks' e e' junk ih =>
    obtain ⟨tr, ha⟩ := ih
    have hd := ha.drop (hist.length - n)
    have hl : (hist.drop (hist.length - n)).length = n := by rw [List.length_drop]; omega
    obtain ⟨st0, l1, l2⟩ := launch_ok hsim hd hP
    rw [hl, e] at l1
    cases l1
    obtain ⟨st1, disks1, tr1, s1, s2, _, _⟩ := session_ok hb hsim hx hd l2 (by rw [hl])
    rw [e'] at s1
    cases s1
    refine ⟨tr1, s2.mono (fun i hi => if_neg ?_)⟩
    simp only [List.length_append, List.length_map, List.length_reverse, hl] at hi
    push_cast at hi
    omega

/-! ## Two sessions with the same inputs -/

theorem saveOps_agree {P : Nat} (snapId : Int) (st : Fin P → List (Sub K D)) (r : Fin P) : ∀ (ops : List (WriteOp P)) (d1 d2 e1 e2 : Disk K D),
    saveOps snapId st ops d1 = .ok e1 → saveOps snapId st ops d2 = .ok e2 →
    ((.sub r ∈ ops ∨ d1.sub r.val = d2.sub r.val) → e1.sub r.val = e2.sub r.val) ∧
    ((.src r ∈ ops ∨ d1.src r.val = d2.src r.val) → e1.src r.val = e2.src r.val) := by
  intro ops
  induction ops with
  | nil =>
    intro d1 d2 e1 e2 h1 h2
    cases h1
    cases h2
    exact ⟨fun h => by simpa using h, fun h => by simpa using h⟩
  | cons op ops ih =>
    intro d1 d2 e1 e2 h1 h2
    unfold saveOps at h1 h2
    rw [List.foldlM_cons] at h1 h2
    obtain ⟨f1, p1, q1⟩ := bind_eq_ok h1
    obtain ⟨f2, p2, q2⟩ := bind_eq_ok h2
    have := ih f1 f2 e1 e2 q1 q2
    cases op with
    | sub r0 =>
      unfold perform at p1 p2
      obtain ⟨g1, a1, b1⟩ := bind_eq_ok p1
      obtain ⟨g2, a2, b2⟩ := bind_eq_ok p2
      rw [a1] at a2
      cases a2
      cases b1
      cases b2
      refine ⟨fun h => this.1 ?_, fun h => this.2 ?_⟩
      · by_cases hr : r.val = r0.val
        · right
          dsimp only
          rw [if_pos hr, if_pos hr]
        · rcases h with h | h
          · left
            rcases List.mem_cons.1 h with h | h
            · cases h; exact absurd rfl hr
            · exact h
          · right
            dsimp only
            rw [if_neg hr, if_neg hr]
            exact h
      · rcases h with h | h
        · left
          simpa using h
        · exact Or.inr h
    | src r0 =>
      unfold perform at p1 p2
      obtain ⟨g1, a1, b1⟩ := bind_eq_ok p1
      obtain ⟨g2, a2, b2⟩ := bind_eq_ok p2
      rw [a1] at a2
      cases a2
      cases b1
      cases b2
      refine ⟨fun h => this.1 ?_, fun h => this.2 ?_⟩
      · rcases h with h | h
        · left
          simpa using h
        · exact Or.inr h
      · by_cases hr : r.val = r0.val
        · right
          dsimp only
          rw [if_pos hr, if_pos hr]
        · rcases h with h | h
          · left
            rcases List.mem_cons.1 h with h | h
            · cases h; exact absurd rfl hr
            · exact h
          · right
            dsimp only
            rw [if_neg hr, if_neg hr]
            exact h

/-- The files of the first `P` processes are the same. -/
def SameFiles (P : Nat) (d1 d2 : Disk K D) : Prop := ∀ r < P, d1.sub r = d2.sub r ∧ d1.src r = d2.src r

theorem session_same [LinearOrder K] [MassSum K] [Mul K] [LinearOrder R] [LinearOrder E] [Zero E] {b : Build K D S} {sim : Int → List Int}
    {P : Nat} {a : Int} {xs : List (SnapInput K D E S R P × List (WriteOp P))} (hx : Consecutive b sim a xs) :
    ∀ {st s1 s2 : Fin P → List (Sub K D)} {d1 d2 e1 e2 : Int → Disk K D}, session b xs st d1 = .ok (s1, e1) → session b xs st d2 = .ok (s2, e2) →
    s1 = s2 ∧ (∀ i, a ≤ i → i < a + xs.length → SameFiles P (e1 i) (e2 i)) ∧ ∀ i, i < a → e1 i = d1 i ∧ e2 i = d2 i := by
  induction hx with
  | nil a =>
    intro st s1 s2 d1 d2 e1 e2 h1 h2
    cases h1
    cases h2
    exact ⟨rfl, fun i h1 h2 => by simp at h2; omega, fun i _ => ⟨rfl, rfl⟩⟩
  | @cons a w ops xs snap ok ops_ rest ih =>
    intro st s1 s2 d1 d2 e1 e2 h1 h2
    unfold session at h1 h2
    obtain ⟨⟨o1, f1⟩, p1, q1⟩ := bind_eq_ok h1
    obtain ⟨⟨o2, f2⟩, p2, q2⟩ := bind_eq_ok h2
    unfold takeSnapshot at p1 p2
    obtain ⟨i1, a1, b1⟩ := bind_eq_ok p1
    obtain ⟨i2, a2, b2⟩ := bind_eq_ok p2
    rw [a1] at a2
    cases a2
    obtain ⟨g1, u1, v1⟩ := bind_eq_ok b1
    obtain ⟨g2, u2, v2⟩ := bind_eq_ok b2
    cases v1
    cases v2
    obtain ⟨k1, k2, k3⟩ := ih q1 q2
    refine ⟨k1, fun i hi1 hi2 => ?_, fun i hi => ?_⟩
    · by_cases hia : i = a
      · obtain ⟨c1, c2⟩ := k3 i (by omega)
        rw [c1, c2]
        dsimp only
        rw [if_pos (by omega), if_pos (by omega)]
        intro r hr
        have := saveOps_agree _ _ ⟨r, hr⟩ _ _ _ _ _ u1 u2
        exact ⟨this.1 (Or.inl (ops_ _).1), this.2 (Or.inl (ops_ _).2)⟩
      · refine k2 i (by omega) ?_
        rw [List.length_cons] at hi2
        push_cast at hi2
        omega
    · obtain ⟨c1, c2⟩ := k3 i (by omega)
      dsimp only at c1 c2
      rw [if_neg (by omega)] at c1 c2
      exact ⟨c1, c2⟩

theorem session_append [LE K] [DecidableLE K] [LT K] [DecidableLT K] [MassSum K] [Mul K] [LT R] [DecidableLT R] [LT E] [DecidableLT E]
    [Zero E] {P : Nat} (b : Build K D S) (xs ys : List (SnapInput K D E S R P × List (WriteOp P))) : ∀ (st : Fin P → List (Sub K D)) (disks : Int → Disk K D),
    session b (xs ++ ys) st disks = (session b xs st disks >>= fun y => session b ys y.1 y.2) := by
  induction xs with
  | nil => intro st disks; rfl
  | cons x xs ih =>
    intro st disks
    rw [List.cons_append, session, session, bind_assoc]
    congr 1
    funext y
    exact ih _ _

theorem Consecutive.append [LE E] {b : Build K D S} {sim : Int → List Int} {P : Nat} {xs ys : List (SnapInput K D E S R P × List (WriteOp P))} :
    ∀ {a : Int}, Consecutive b sim a (xs ++ ys) → Consecutive b sim a xs ∧ Consecutive b sim (a + xs.length) ys := by
  induction xs with
  | nil => intro a h; exact ⟨.nil a, by simpa using h⟩
  | cons x xs ih =>
    intro a h
    cases h with
    | cons snap ok ops_ rest =>
      obtain ⟨h1, h2⟩ := ih rest
      refine ⟨.cons snap ok ops_ h1, ?_⟩
      rw [List.length_cons]
      push_cast
      rw [show a + ((xs.length : Int) + 1) = a + 1 + xs.length by omega]
      exact h2

theorem Consecutive.last [LE E] {b : Build K D S} {sim : Int → List Int} {P : Nat} {xs : List (SnapInput K D E S R P × List (WriteOp P))}
    {w : SnapInput K D E S R P} {ops : List (WriteOp P)} {a : Int} (h : Consecutive b sim a (xs ++ [(w, ops)])) : w.snap = a + xs.length := by
  cases h.append.2 with
  | cons snap _ _ _ => exact snap

/-! ## The number of tracks -/

theorem length_everyone {P : Nat} (st : Fin P → List (Sub K D)) : (everyone st).length = ∑ r, (st r).length := by
  unfold everyone
  rw [List.length_flatten, List.map_ofFn, List.sum_ofFn]
  rfl

theorem run_grows [LinearOrder K] [MassSum K] [LinearOrder E] [Zero E] {P : Nat} {par : Params K D} (hpar : par.Ok)
    {tr : List (Σ P, Snapshot K D E P)} {d : Snapshot K D E P} (h : Run par (⟨P, d⟩ :: tr)) :
    (everyone (latest tr).2).length ≤ (everyone d.out).length := by
  obtain ⟨hf, hi, _⟩ := run_facts hpar h
  rw [← hi.moved.length_eq, length_everyone, length_everyone]
  refine Finset.sum_le_sum (fun r _ => ?_)
  obtain ⟨N, _, hup⟩ := hf.updated
  obtain ⟨reg, ereg, hreg⟩ := hup r
  have hm := congrArg List.length (merged_hosts hf r)
  rw [List.length_map, List.length_map, List.length_append] at hm
  rw [(hi.carried r).length_eq, ← hreg.length_eq, ereg, List.length_append, List.length_take]
  omega

theorem run_sorted [LinearOrder K] [MassSum K] [LinearOrder E] [Zero E] {par : Params K D} (hpar : par.Ok)
    {tr : List (Σ P, Snapshot K D E P)} (h : Run par tr) : tr.Pairwise (fun a b => (everyone b.2.out).length ≤ (everyone a.2.out).length) := by
  induction h with
  | start => exact List.Pairwise.nil
  | next tr d h ok later comp ih =>
    have hg := run_grows hpar (.next tr d h ok later comp)
    refine List.pairwise_cons.2 ⟨fun x hx => ?_, ih⟩
    cases tr with
    | nil => cases hx
    | cons y tr =>
      change (everyone y.2.out).length ≤ _ at hg
      rcases List.mem_cons.1 hx with rfl | hx
      · exact hg
      · exact le_trans ((List.pairwise_cons.1 ih).1 x hx) hg

/-! ## The properties -/

section
variable [LinearOrder K] [MassSum K] [Mul K] [LinearOrder R] [LinearOrder E] [Zero E]

/-- C58. Whatever sessions there have been, a session from any snapshot up to the first that is not complete, with any number of
processes and any inputs, schedules and gravity solver, loads the last catalogue and processes all its snapshots: there is no
undefined behaviour, no abort, no endless loop. -/
theorem C58_never_fails {b : Build K D S} (hb : BuildOk b) {sim : Int → List Int} (hsim : Persistent b sim) {disks : Int → Disk K D}
    {hist : List (Σ P, SnapInput K D E S R P)} (h : Reach b sim disks hist) {P : Nat} (hP : 0 < P) {n : Nat} (hn : n ≤ hist.length)
    {xs : List (SnapInput K D E S R P × List (WriteOp P))} (hx : Consecutive b sim (b.minIndex + n) xs) :
    ∃ st st' disks', launch P b (b.minIndex + n) disks = .ok st ∧ session b xs st disks = .ok (st', disks') := by
  obtain ⟨tr, ha⟩ := reach_archive hb hsim h
  have hl : (hist.drop (hist.length - n)).length = n := by rw [List.length_drop]; omega
  have hd := ha.drop (hist.length - n)
  obtain ⟨st, l1, l2⟩ := launch_ok hsim hd hP
  rw [hl] at l1
  obtain ⟨st', disks', _, s1, _⟩ := session_ok hb hsim hx hd l2 (by rw [hl])
  exact ⟨st, st', disks', l1, s1⟩

/-- C58. Whatever sessions there have been, the catalogues of the complete snapshots are those of one run without interruption (so
everything proved of runs holds of them), and each loads with any number of processes. -/
theorem C58_history {b : Build K D S} (hb : BuildOk b) {sim : Int → List Int} (hsim : Persistent b sim) {disks : Int → Disk K D}
    {hist : List (Σ P, SnapInput K D E S R P)} (h : Reach b sim disks hist) :
    ∃ tr : List (Σ P, Snapshot K D E P), Run (params b) tr ∧ tr.length = hist.length ∧
      ∀ k x y, hist[k]? = some x → tr[k]? = some y →
        x.2.snap = b.minIndex + (hist.length - 1 - k : Nat) ∧ y.2.snap = x.2.snap ∧
        ∀ P' want, 0 < P' → ∃ ld : Fin P' → List (Sub K D),
          loadSubs P' want b.blank b.minIndex x.2.snap (b.snapId x.2.snap) (disks x.2.snap) = .ok ld ∧
          everyone ld = (everyone y.2.out).map (reloaded want b.blank) := by
  obtain ⟨tr, ha⟩ := reach_archive hb hsim h
  refine ⟨tr, ha.run, ha.kept.length_eq.symm, fun k x y hx hy => ?_⟩
  obtain ⟨h1, e1⟩ := List.getElem?_eq_some_iff.1 hx
  obtain ⟨h2, e2⟩ := List.getElem?_eq_some_iff.1 hy
  have hk : Stored b sim disks hist[k] tr[k] := (List.forall₂_iff_get.1 ha.kept).2 k h1 h2
  have hnum := ha.numbered.drop k
  rw [List.drop_eq_getElem_cons h1] at hnum
  have hs := hnum.1
  rw [List.length_drop] at hs
  rw [e1, e2] at hk
  rw [e1] at hs
  obtain ⟨Q, w, d, rfl, rfl, hQ, hsnap, hold, _⟩ := hk
  refine ⟨by rw [hs]; congr 2; omega, hsnap, fun P' want hP' => ?_⟩
  obtain ⟨orig, q1, q2, _⟩ := load_ok hQ hP' hold want b.blank (minIndex := b.minIndex) (index := w.snap)
    (by rw [show w.snap = _ from hs]; omega)
  exact ⟨_, q2, by rw [everyone_map, q1]⟩

/-- C58. Every catalogue that has been written loads, with any number of processes, and in it: the track ids are `0`, …, `N-1`, each
once; each track has at least `MinNumPartOfSub` bound particles, or is an orphan with at most one particle; all its particles exist
in this snapshot; its host is one of the groups of this snapshot, or none. -/
theorem C58_catalogue {b : Build K D S} (hb : BuildOk b) {sim : Int → List Int} (hsim : Persistent b sim) {disks : Int → Disk K D}
    {hist : List (Σ P, SnapInput K D E S R P)} (h : Reach b sim disks hist) {x : Σ P, SnapInput K D E S R P} (hx : x ∈ hist) {P' : Nat} (hP' : 0 < P') :
    ∃ ld : Fin P' → List (Sub K D),
      loadSubs P' .source b.blank b.minIndex x.2.snap (b.snapId x.2.snap) (disks x.2.snap) = .ok ld ∧
      (∃ N, ((everyone ld).map Sub.trackId).Perm ((List.range N).map (fun i : Nat => (i : Int)))) ∧
      ∀ s ∈ everyone ld,
        ((b.cfg.minNum ≤ s.nbound ∧ s.nbound ≤ s.particles.length) ∨ (s.nbound ≤ 1 ∧ s.particles.length = s.nbound)) ∧
        (∀ p ∈ s.particles, p.id ∈ sim x.2.snap) ∧
        (s.hostHaloId = -1 ∨ ∃ r, ∃ g ∈ x.2.halos r, b.haloId g.shell = s.hostHaloId) := by
  obtain ⟨tr, ha⟩ := reach_archive hb hsim h
  obtain ⟨k, hk⟩ := List.getElem?_of_mem hx
  obtain ⟨h1, e1⟩ := List.getElem?_eq_some_iff.1 hk
  have h2 : k < tr.length := by rw [← ha.kept.length_eq]; exact h1
  have hst : Stored b sim disks hist[k] tr[k] := (List.forall₂_iff_get.1 ha.kept).2 k h1 h2
  have hnum := ha.numbered.lt _ (List.getElem_mem h1)
  have hrun := run_drop ha.run k
  rw [List.drop_eq_getElem_cons h2] at hrun
  rw [e1] at hst hnum
  obtain ⟨Q, w, d, rfl, e2, hQ, hsnap, hold, hlist, _, halos, hgr, hids⟩ := hst
  rw [e2] at hrun
  obtain ⟨orig, q1, q2, _⟩ := load_ok hQ hP' hold .source b.blank (minIndex := b.minIndex) (index := w.snap) hnum.1
  have hpar := params_ok hb
  obtain ⟨hf, hi, _⟩ := run_facts hpar hrun
  have hinv := run_inv hpar hrun
  refine ⟨_, q2, ?_, ?_⟩
  · obtain ⟨N, hN⟩ := hf.sound.2.1
    refine ⟨N, ?_⟩
    rw [everyone_map, q1, List.map_map]
    unfold Dense at hN
    rw [allIds_everyone] at hN
    exact hN
  · intro s hs
    rw [everyone_map, q1] at hs
    obtain ⟨u, hu, rfl⟩ := List.mem_map.1 hs
    obtain ⟨r, hr⟩ := mem_everyone.1 hu
    have hlen : (reloaded .source b.blank u).particles.length = u.particles.length := by rw [reloaded_source]; simp [Sub.withParticles]
    have ht := hinv.tidy r u hr
    refine ⟨?_, fun p hp => ?_, ?_⟩
    · rw [hlen]
      rcases ht.two with h | h
      · exact Or.inl ⟨h, ht.le⟩
      · exact Or.inr h
    · rw [reloaded_source] at hp
      obtain ⟨q, hq, rfl⟩ := List.mem_map.1 hp
      exact (hlist r u hr q hq).1
    · show u.hostHaloId = -1 ∨ ∃ r, ∃ g ∈ w.halos r, b.haloId g.shell = u.hostHaloId
      obtain ⟨N, _, hup⟩ := hf.updated
      obtain ⟨reg, _, hreg⟩ := hup r
      obtain ⟨i, hi⟩ := List.getElem?_of_mem hr
      obtain ⟨hil, ei⟩ := List.getElem?_eq_some_iff.1 hi
      have := (List.forall₂_iff_get.1 hreg).2 i (by rw [hreg.length_eq]; exact hil) hil
      rw [List.get_eq_getElem, List.get_eq_getElem, ei] at this
      rcases this.2 with ⟨_, h⟩ | ⟨j, _, h⟩
      · exact Or.inl h
      · right
        rw [hids r, List.getElem?_map, Option.map_eq_some_iff] at h
        obtain ⟨g, hg, eg⟩ := h
        have hm : (b.haloId g.shell, g.particles) ∈ (List.ofFn halos).flatten.map (fun h => (b.haloId h.shell, h.particles)) :=
          List.mem_map.2 ⟨g, List.mem_flatten.2 ⟨halos r, (List.mem_ofFn' _ _).2 ⟨r, rfl⟩, List.mem_of_getElem? hg⟩, rfl⟩
        obtain ⟨g', hg', eg'⟩ := List.mem_map.1 (hgr.mem_iff.1 hm)
        obtain ⟨l, hl, hl'⟩ := List.mem_flatten.1 hg'
        obtain ⟨r', rfl⟩ := (List.mem_ofFn' _ _).1 hl
        exact ⟨r', g', hl', by rw [← eg]; exact (Prod.mk.inj eg').1⟩

/-- C58. At the end of a session, the particles of all tracks are records of the last snapshot (or, if groups are read with their
own copies of the particle data, possibly of a group of the last snapshot): no position, velocity or mass is left from an earlier
one. -/
theorem C58_current {b : Build K D S} (hb : BuildOk b) {sim : Int → List Int} (hsim : Persistent b sim) {disks : Int → Disk K D}
    {hist : List (Σ P, SnapInput K D E S R P)} (h : Reach b sim disks hist) {P : Nat} (hP : 0 < P) {n : Nat} (hn : n ≤ hist.length)
    {xs : List (SnapInput K D E S R P × List (WriteOp P))} {w : SnapInput K D E S R P} {ops : List (WriteOp P)}
    (hx : Consecutive b sim (b.minIndex + n) (xs ++ [(w, ops)])) {st st' : Fin P → List (Sub K D)} {disks' : Int → Disk K D}
    (e : launch P b (b.minIndex + n) disks = .ok st) (e' : session b (xs ++ [(w, ops)]) st disks = .ok (st', disks')) :
    ∀ r, ∀ s ∈ st' r, ∀ p ∈ s.particles,
      (∃ r', p ∈ w.parts r') ∨ (b.fullGroups = true ∧ ∃ r', ∃ g ∈ w.halos r', p ∈ g.particles) := by
  obtain ⟨tr, ha⟩ := reach_archive hb hsim h
  have hl : (hist.drop (hist.length - n)).length = n := by rw [List.length_drop]; omega
  have hd := ha.drop (hist.length - n)
  obtain ⟨st0, l1, l2⟩ := launch_ok hsim hd hP
  rw [hl, e] at l1
  cases l1
  obtain ⟨st1, disks1, _, s1, _, _, s2⟩ := session_ok hb hsim hx hd l2 (by rw [hl])
  rw [e'] at s1
  cases s1
  intro r s hs p hp
  exact ((s2 xs w ops rfl).1 r s hs p hp).2.imp_left (mem_allParticles _ _).1

/-- C58. Tracks never disappear: each track of a catalogue is in the catalogues of all later snapshots. -/
theorem C58_tracks_stay {b : Build K D S} (hb : BuildOk b) {sim : Int → List Int} (hsim : Persistent b sim) {disks : Int → Disk K D}
    {hist : List (Σ P, SnapInput K D E S R P)} (h : Reach b sim disks hist) {x y : Σ P, SnapInput K D E S R P} (hx : x ∈ hist) (hy : y ∈ hist)
    (hxy : x.2.snap ≤ y.2.snap) {P' P'' : Nat} (hP' : 0 < P') (hP'' : 0 < P'') {ldx : Fin P' → List (Sub K D)} {ldy : Fin P'' → List (Sub K D)}
    (ex : loadSubs P' .source b.blank b.minIndex x.2.snap (b.snapId x.2.snap) (disks x.2.snap) = .ok ldx)
    (ey : loadSubs P'' .source b.blank b.minIndex y.2.snap (b.snapId y.2.snap) (disks y.2.snap) = .ok ldy) :
    ∀ s ∈ everyone ldx, ∃ s' ∈ everyone ldy, s'.trackId = s.trackId := by
  obtain ⟨tr, hrun, hlen, hist_⟩ := C58_history hb hsim h
  obtain ⟨k, hk⟩ := List.getElem?_of_mem hx
  obtain ⟨l, hl⟩ := List.getElem?_of_mem hy
  have hk1 := (List.getElem?_eq_some_iff.1 hk).1
  have hl1 := (List.getElem?_eq_some_iff.1 hl).1
  obtain ⟨k1, k2, k3⟩ := hist_ k x tr[k] hk (List.getElem?_eq_getElem (by omega))
  obtain ⟨l1, l2, l3⟩ := hist_ l y tr[l] hl (List.getElem?_eq_getElem (by omega))
  have hlk : l ≤ k := by omega
  have hcount : (everyone tr[k].2.out).length ≤ (everyone tr[l].2.out).length := by
    rcases Nat.eq_or_lt_of_le hlk with e | hlt
    · subst e; exact le_refl _
    · exact List.pairwise_iff_getElem.1 (run_sorted (params_ok hb) hrun) l k (by omega) (by omega) hlt
  obtain ⟨ldx', ex', hx'⟩ := k3 P' .source hP'
  obtain ⟨ldy', ey', hy'⟩ := l3 P'' .source hP''
  rw [ex] at ex'
  cases ex'
  rw [ey] at ey'
  cases ey'
  obtain ⟨ldx', ex', ⟨N, hN⟩, _⟩ := C58_catalogue hb hsim h hx hP'
  obtain ⟨ldy', ey', ⟨M, hM⟩, _⟩ := C58_catalogue hb hsim h hy hP''
  rw [ex] at ex'
  cases ex'
  rw [ey] at ey'
  cases ey'
  have hNM : N ≤ M := by
    have h1 := hN.length_eq
    have h2 := hM.length_eq
    rw [hx'] at h1
    rw [hy'] at h2
    simp only [List.length_map, List.length_range] at h1 h2
    omega
  intro s hs
  obtain ⟨i, hi, e⟩ := List.mem_map.1 (hN.mem_iff.1 (List.mem_map_of_mem hs))
  have : s.trackId ∈ (everyone ldy).map Sub.trackId :=
    hM.mem_iff.2 (List.mem_map.2 ⟨i, List.mem_range.2 (lt_of_lt_of_le (List.mem_range.1 hi) hNM), e⟩)
  obtain ⟨s', hs', e'⟩ := List.mem_map.1 this
  exact ⟨s', hs', e'⟩

/-- C59. A session is killed after any number of snapshots, at any moment of writing the next catalogue, and started again from there
with the same number of processes. The files it then writes are those the session would have written without interruption, and so
is the state at the end. -/
theorem C59_restart {b : Build K D S} (hb : BuildOk b) {sim : Int → List Int} (hsim : Persistent b sim) {disks : Int → Disk K D}
    {hist : List (Σ P, SnapInput K D E S R P)} (h : Reach b sim disks hist) {P : Nat} (hP : 0 < P) {n : Nat} (hn : n ≤ hist.length)
    {xs ys : List (SnapInput K D E S R P × List (WriteOp P))} (hx : Consecutive b sim (b.minIndex + n) (xs ++ ys))
    {st stF st1 st1' st2 : Fin P → List (Sub K D)} {disksF disks1 disks2 : Int → Disk K D} (e : launch P b (b.minIndex + n) disks = .ok st)
    (full : session b (xs ++ ys) st disks = .ok (stF, disksF)) (part : session b xs st disks = .ok (st1, disks1)) (junk : Disk K D)
    (again : launch P b (b.minIndex + n + xs.length) (fun i => if i = b.minIndex + n + xs.length then junk else disks1 i) = .ok st1')
    (rest : session b ys st1' (fun i => if i = b.minIndex + n + xs.length then junk else disks1 i) = .ok (st2, disks2)) :
    (∀ i, b.minIndex + n ≤ i → i < b.minIndex + n + (xs ++ ys).length → ∀ r < P,
      (disks2 i).sub r = (disksF i).sub r ∧ (disks2 i).src r = (disksF i).src r) ∧ (ys ≠ [] → st2 = stF) := by
  obtain ⟨tr, ha⟩ := reach_archive hb hsim h
  have hl : (hist.drop (hist.length - n)).length = n := by rw [List.length_drop]; omega
  have hd := ha.drop (hist.length - n)
  obtain ⟨hx1, hx2⟩ := hx.append
  obtain ⟨st0, l1, l2⟩ := launch_ok hsim hd hP
  rw [hl, e] at l1
  cases l1
  obtain ⟨st10, disks10, tr1, s1, s2, s3, s4⟩ := session_ok hb hsim hx1 hd l2 (by rw [hl])
  rw [part] at s1
  cases s1
  rw [session_append, part, Outcome.bind_ok] at full
  have hsame : ∀ i, b.minIndex + n ≤ i → i < b.minIndex + n + xs.length → disks1 i = (fun i => if i = b.minIndex + n + xs.length then junk else disks1 i) i := by
    intro i _ hi
    dsimp only
    rw [if_neg (by omega)]
  cases ys with
  | nil =>
    cases full
    cases rest
    refine ⟨fun i h1 h2 r _ => ?_, fun h => absurd rfl h⟩
    rw [List.append_nil] at h2
    rw [← hsame i h1 h2]
    exact ⟨rfl, rfl⟩
  | cons y ys =>
    obtain ⟨w, ops⟩ := y
    have hit : iteration b w st1' = iteration b w st1 := by
      rcases List.eq_nil_or_concat xs with rfl | ⟨xs0, ⟨w0, ops0⟩, rfl⟩
      · cases part
        have : launch P b (b.minIndex + n) (fun i => if i = b.minIndex + n + ([] : List (SnapInput K D E S R P × List (WriteOp P))).length then junk else disks i)
            = launch P b (b.minIndex + n) disks := by
          unfold launch
          dsimp only
          rw [if_neg (by simp)]
        rw [List.length_nil, Nat.cast_zero, add_zero] at again
        rw [List.length_nil, Nat.cast_zero, add_zero] at this
        rw [this, e] at again
        cases again
        rfl
      · rw [List.concat_eq_append] at *
        obtain ⟨g1, g2, g3⟩ := s4 xs0 w0 ops0 rfl
        have hw0 := hx1.last
        cases hx2 with
        | cons snap ok ops_ rest' =>
          have hlen : b.minIndex + (n : Int) + ((xs0 ++ [(w0, ops0)]).length : Nat) - 1 = w0.snap := by
            rw [hw0, List.length_append]; push_cast; simp; omega
          unfold launch at again
          rw [hlen] at again
          dsimp only at again
          rw [if_neg (by omega), load_same hP g3 .source b.blank (by omega)] at again
          cases again
          have hlenh : b.minIndex + (((xs0 ++ [(w0, ops0)]).reverse.map (fun x => (⟨P, x.1⟩ : Σ P, SnapInput K D E S R P)) ++ hist.drop (hist.length - n)).length : Nat)
              = b.minIndex + n + ((xs0 ++ [(w0, ops0)]).length : Nat) := by
            rw [List.length_append, List.length_map, List.length_reverse, hl]; push_cast; omega
          have hk := s3.known
          rw [hlenh] at hk
          refine iteration_congr hb ok ?_ ?_ g2 hk (fun r => ?_)
          · intro r s hs
            obtain ⟨u, hu, rfl⟩ := List.mem_map.1 hs
            rw [reloaded_source]
            show u.nbound ≤ (u.particles.map _).length
            rw [List.length_map]
            exact g2 r u hu
          · intro r s hs p hp
            obtain ⟨u, hu, rfl⟩ := List.mem_map.1 hs
            rw [reloaded_source] at hp
            obtain ⟨q, hq, rfl⟩ := List.mem_map.1 hp
            exact hk r u hu q hq
          · rw [List.map_map]
            refine List.map_congr_left (fun s hs => ?_)
            exact renew_reloaded b b.blank ok.ids_ ok.nonneg (hk r s hs)
    cases hx2 with
    | cons snap ok ops_ rest' =>
      unfold session at full rest
      obtain ⟨⟨o1, f1⟩, p1, q1⟩ := bind_eq_ok full
      obtain ⟨⟨o2, f2⟩, p2, q2⟩ := bind_eq_ok rest
      unfold takeSnapshot at p1 p2
      obtain ⟨i1, a1, b1⟩ := bind_eq_ok p1
      obtain ⟨i2, a2, b2⟩ := bind_eq_ok p2
      rw [hit, a1] at a2
      cases a2
      obtain ⟨g1, u1, v1⟩ := bind_eq_ok b1
      obtain ⟨g2, u2, v2⟩ := bind_eq_ok b2
      cases v1
      cases v2
      obtain ⟨k1, k2, k3⟩ := session_same rest' q1 q2
      refine ⟨fun i h1 h2 r hr => ?_, fun _ => k1.symm⟩
      by_cases h3 : i < b.minIndex + n + xs.length
      · obtain ⟨c1, c2⟩ := k3 i (by omega)
        rw [c1, c2]
        dsimp only
        rw [if_neg (by omega), if_neg (by omega), if_neg (by omega)]
        exact ⟨rfl, rfl⟩
      · by_cases h4 : i = b.minIndex + n + xs.length
        · obtain ⟨c1, c2⟩ := k3 i (by omega)
          rw [c1, c2]
          dsimp only
          rw [if_pos (by omega), if_pos (by omega)]
          have := saveOps_agree _ _ ⟨r, hr⟩ _ _ _ _ _ u1 u2
          exact ⟨(this.1 (Or.inl (ops_ _).1)).symm, (this.2 (Or.inl (ops_ _).2)).symm⟩
        · have := k2 i (by omega) (by rw [List.length_append, List.length_cons] at h2; push_cast at h2; omega) r hr
          exact ⟨this.1.symm, this.2.symm⟩

end

end HBT.Props
