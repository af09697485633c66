import Verif.Lemmas.Branch
/-!
# C50: infall-branch statistics
-/
namespace HBT.Props
open HBT.Model HBT.Spec

/-- The branch a particle ends up with: none if it has no host or its host is the main branch. -/
def finalBranch (host : Int → Option Int) (main : Int) (pid : Int) : Int :=
  match host pid with
  | some b => if b = main then -1 else b
  | none => -1

/-- The states a pass of the main loop is meant to start from: all ranks agree how many particles are
settled, the rest carry no branch. -/
structure BranchReady {P : Nat} (root : TargetHalo) (slaves : Fin P → TargetHalo) : Prop where
  settled : root.nfound ≤ root.parts.length
  agree : ∀ i, (slaves i).nfound = root.nfound
  room : ∀ i, root.nfound ≤ (slaves i).parts.length
  open_ : ∀ p ∈ root.parts.drop root.nfound, p.branch = -1

/-- The master's target after one pass, before it is related to the specification. -/
theorem step_eq {P : Nat} (narrow : Int → Int) (env : BranchEnv P) (host : Int → Option Int)
    (hhost : Hosted env.snap host) (hss : ∀ i, BranchSort (env.slaveSort i))
    (ho : env.order.Perm (List.finRange P)) (root : TargetHalo) (slaves : Fin P → TargetHalo)
    (hready : BranchReady root slaves) :
    ∃ ids : List Int, ids.Perm ((root.parts.drop root.nfound).filterMap (fun p => host p.pid)) ∧
      ∃ slaves' : Fin P → TargetHalo, (∀ i, (slaves' i).nfound = (slaves i).nfound) ∧
      branchStep narrow env (root, slaves) = .ok
        ({ parts := root.parts.take root.nfound ++ env.rootSort ((root.parts.drop root.nfound).map (fun p =>
              if branchCode (host p.pid) = ((env.iter ids).foldl (searchMain narrow) ⟨-1, 0, 0⟩).maxId
              then { p with branch := -1 } else { p with branch := branchCode (host p.pid) })),
           nfound := root.nfound + (((env.iter ids).foldl (searchMain narrow) ⟨-1, 0, 0⟩).newFound
              - ((env.iter ids).foldl (searchMain narrow) ⟨-1, 0, 0⟩).maxCount),
           nbranch := root.nbranch + (((env.iter ids).length : Int) - 1
              - (if ((env.iter ids).foldl (searchMain narrow) ⟨-1, 0, 0⟩).maxId ≠ -1 then 1 else 0)) },
         slaves') := by
  obtain ⟨R, hR⟩ : ∃ R, R = root.parts.drop root.nfound := ⟨_, rfl⟩
  obtain ⟨k, hk⟩ : ∃ k, k = root.nfound := ⟨_, rfl⟩
  have hset := hready.settled
  have hb : allRanks P (fun i => bcastTarget root (slaves i))
      = .ok (fun i => TargetHalo.mk ((slaves i).parts.take k ++ R) (slaves i).nfound (slaves i).nbranch) := by
    apply allRanks_ok
    intro i
    rw [bcastTarget, if_pos (hready.agree i), hready.agree i, hR, hk]
  have hf : allRanks P (fun i => findHost (env.snap i)
        (TargetHalo.mk ((slaves i).parts.take k ++ R) (slaves i).nfound (slaves i).nbranch))
      = .ok (fun i => TargetHalo.mk ((slaves i).parts.take k ++ (R.zipIdx k).map (asFound env.snap host i)) (slaves i).nfound (slaves i).nbranch) := by
    apply allRanks_ok
    intro i
    have hlen : ((slaves i).parts.take k).length = k := by
      rw [List.length_take, hk]; have := hready.room i; omega
    have ha : (slaves i).nfound = k := by rw [hready.agree i, hk]
    simp only [findHost, ha]
    rw [List.drop_append_of_le_length (by omega), List.drop_of_length_le (by omega), List.nil_append,
      findFrom_eq hhost, Outcome.bind_ok, List.take_append_of_le_length (by omega),
      List.take_of_length_le (by omega)]
  have hsend : ∀ i, sendHost (env.slaveSort i)
      (TargetHalo.mk ((slaves i).parts.take k ++ (R.zipIdx k).map (asFound env.snap host i))
        (slaves i).nfound (slaves i).nbranch)
      = (trimEnd (env.slaveSort i ((R.zipIdx k).map (asFound env.snap host i))),
        TargetHalo.mk ((slaves i).parts.take k ++ env.slaveSort i ((R.zipIdx k).map (asFound env.snap host i)))
          (slaves i).nfound (slaves i).nbranch) := by
    intro i
    have hlen : ((slaves i).parts.take k).length = k := by
      rw [List.length_take, hk]; have := hready.room i; omega
    have ha : (slaves i).nfound = k := by rw [hready.agree i, hk]
    simp only [sendHost, ha]
    rw [List.drop_append_of_le_length (by omega), List.drop_of_length_le (by omega), List.nil_append,
      List.take_append_of_le_length (by omega), List.take_of_length_le (by omega)]
  obtain ⟨msgs, hmsgs⟩ : ∃ msgs, msgs = env.order.map (fun i =>
    trimEnd (env.slaveSort i ((R.zipIdx k).map (asFound env.snap host i)))) := ⟨_, rfl⟩
  have hperm := messages_perm hhost env.slaveSort hss env.order ho R k
  rw [← hmsgs] at hperm
  -- storing
  have hmem : ∀ h ∈ msgs.flatten, ∃ p j, (p, j) ∈ R.zipIdx k ∧ host p.pid = some h.branch ∧ h.index = j := by
    intro h hh
    obtain ⟨x, hx, hx2⟩ := List.mem_filterMap.mp (hperm.mem_iff.mp hh)
    cases hc : host x.1.pid with
    | none => rw [hc] at hx2; simp at hx2
    | some b =>
      rw [hc] at hx2
      simp only [Option.map_some, Option.some.injEq] at hx2
      subst hx2
      exact ⟨x.1, x.2, hx, hc, rfl⟩
  have hidx : ∀ p j, (p, j) ∈ R.zipIdx k ↔ k ≤ j ∧ ∃ hj : j < root.parts.length, root.parts[j] = p := by
    intro p j
    rw [List.mk_mem_zipIdx_iff_le_and_getElem?_sub]
    constructor
    · rintro ⟨h1, h2⟩
      refine ⟨h1, ?_⟩
      rw [hR, List.getElem?_drop, ← hk, show k + (j - k) = j by omega] at h2
      obtain ⟨h3, h4⟩ := List.getElem?_eq_some_iff.mp h2
      exact ⟨h3, h4⟩
    · rintro ⟨h1, h2, h3⟩
      refine ⟨h1, ?_⟩
      rw [hR, List.getElem?_drop, ← hk, show k + (j - k) = j by omega]
      rw [List.getElem?_eq_some_iff]
      exact ⟨h2, h3⟩
  obtain ⟨out, hst, hol, hospec⟩ := storeBranches_eq
    (fun j => if h : j < root.parts.length then branchCode (host root.parts[j].pid) else -1)
    msgs.flatten root.parts (by
      intro h hh
      obtain ⟨p, j, hpj, hp, hj⟩ := hmem h hh
      obtain ⟨h1, h2, h3⟩ := (hidx p j).mp hpj
      subst hj
      refine ⟨h2, ?_⟩
      rw [dif_pos h2, h3, hp]
      rfl)
  have hout : out = root.parts.take k ++ R.map (fun p => { p with branch := branchCode (host p.pid) }) := by
    apply List.ext_getElem
    · rw [hol, List.length_append, List.length_map, List.length_take, hR, List.length_drop]
      omega
    · intro j h1 h2
      obtain ⟨s1, s2⟩ := hospec j (by omega) h1
      by_cases hjk : j < k
      · rw [List.getElem_append_left (by rw [List.length_take]; omega), List.getElem_take]
        apply s2
        intro h hh he
        obtain ⟨p, j', hpj, hp, hj⟩ := hmem h hh
        have := ((hidx p j').mp hpj).1
        omega
      · rw [List.getElem_append_right (by rw [List.length_take]; omega), List.getElem_map]
        have hjl : j < root.parts.length := by omega
        have hRj : R[j - (root.parts.take k).length]'(by
            rw [List.length_take, hR, List.length_drop]; omega) = root.parts[j] := by
          simp only [hR, List.getElem_drop, List.length_take]
          congr 1
          omega
        rw [hRj]
        cases hc : host root.parts[j].pid with
        | none =>
          rw [s2]
          · have : root.parts[j].branch = -1 := hready.open_ _ (by
              rw [← hR, ← hRj]; exact List.getElem_mem _)
            simp only [branchCode]
            rw [← this]
          · intro h hh he
            obtain ⟨p, j', hpj, hp, hj⟩ := hmem h hh
            obtain ⟨-, h4, h5⟩ := (hidx p j').mp hpj
            have : j' = j := by omega
            subst this
            rw [h5, hp] at hc
            exact absurd hc (by simp)
        | some b =>
          rw [s1]
          · rw [dif_pos hjl, hc]
          · refine ⟨{ root.parts[j] with branch := b, index := j }, ?_, rfl⟩
            rw [hperm.mem_iff, List.mem_filterMap]
            exact ⟨(root.parts[j], j), (hidx _ _).mpr ⟨by omega, hjl, rfl⟩, by simp [hc]⟩
  refine ⟨msgs.flatten.map (·.branch), ?_, (fun i => TargetHalo.mk ((slaves i).parts.take k ++ env.slaveSort i ((R.zipIdx k).map (asFound env.snap host i)))
          (slaves i).nfound (slaves i).nbranch), fun i => rfl, ?_⟩
  · refine (hperm.map _).trans ?_
    rw [← hR, List.map_filterMap]
    apply List.Perm.of_eq
    have : ∀ (R : List BranchPart) (k : Nat), (R.zipIdx k).filterMap (fun x =>
        Option.map (fun q : BranchPart => q.branch) ((host x.1.pid).map (fun b =>
          { x.1 with branch := b, index := x.2 }))) = R.filterMap (fun p => host p.pid) := by
      intro R
      induction R with
      | nil => intro k; rfl
      | cons p R ih =>
        intro k
        rw [List.zipIdx_cons, List.filterMap_cons, List.filterMap_cons, ih]
        cases host p.pid <;> rfl
    exact this R k
  · rw [branchStep]
    simp only
    rw [hb, Outcome.bind_ok, hf, Outcome.bind_ok]
    simp only [hsend]
    rw [← hmsgs, reduceHost, hst, Outcome.bind_ok]
    simp only [Outcome.bind_ok]
    have hlen : (root.parts.take k).length = k := by rw [List.length_take]; omega
    have hd : out.drop k = R.map (fun p => { p with branch := branchCode (host p.pid) }) := by
      rw [hout, List.drop_append_of_le_length (by omega), List.drop_of_length_le (by omega),
        List.nil_append]
    have ht : out.take k = root.parts.take k := by
      rw [hout, List.take_append_of_le_length (by omega), List.take_of_length_le (by omega)]
    rw [hR] at hd ⊢
    rw [← hk] at hd ⊢
    rw [hd, ht, List.map_map]
    rfl

/-- **C50.** One pass of the main loop on states whose ranks agree. Whatever the distribution of the
particles over progenitor haloes and slaves, the order in which messages arrive and the map is
iterated, the master: picks a main branch holding the most particles; gives each remaining particle
the branch of its host unless that is the main one; moves those with a branch to the front and counts
them as settled. -/
theorem C50_particles {P : Nat} (narrow : Int → Int) (env : BranchEnv P) (host : Int → Option Int)
    (hhost : Hosted env.snap host) (hss : ∀ i, BranchSort (env.slaveSort i))
    (hrs : BranchSort env.rootSort) (hit : MapIteration env.iter)
    (ho : env.order.Perm (List.finRange P)) (root : TargetHalo) (slaves : Fin P → TargetHalo)
    (hready : BranchReady root slaves) (ids : List Int)
    (hids : ids = (root.parts.drop root.nfound).map (·.pid))
    (hnarrow : ∀ b ∈ branches host ids, narrow b = b) :
    ∃ root' slaves' main, branchStep narrow env (root, slaves) = .ok (root', slaves') ∧
      (branches host ids = [] ∧ main = -1 ∨ IsMain host ids main) ∧
      ∃ tail, root'.parts = root.parts.take root.nfound ++ tail ∧
        tail.Perm ((root.parts.drop root.nfound).map (fun p =>
          { p with branch := finalBranch host main p.pid })) ∧
        root'.nfound = root.nfound + ids.countP (fun pid => finalBranch host main pid != -1) ∧
        (∀ p ∈ tail.take (root'.nfound - root.nfound), p.branch ≠ -1) ∧
        (∀ p ∈ tail.drop (root'.nfound - root.nfound), p.branch = -1) ∧
        root'.nbranch = root.nbranch + ((branches host ids).length : Int) - 1
          - (if branches host ids = [] then 0 else 1) := by
  obtain ⟨R, hR⟩ : ∃ R, R = root.parts.drop root.nfound := ⟨_, rfl⟩
  obtain ⟨sent, hsent, slaves', -, hstep⟩ := step_eq narrow env host hhost hss ho root slaves hready
  rw [← hR] at hsent hstep hids
  have hfm : ids.filterMap host = R.filterMap (fun p => host p.pid) := by
    rw [hids, List.filterMap_map]; rfl
  have hsent' : sent.Perm (ids.filterMap host) := by rw [hfm]; exact hsent
  have hnn : ∀ b ∈ sent, 0 ≤ b ∧ narrow b = b := by
    intro b hb
    have hb' := hsent'.mem_iff.mp hb
    obtain ⟨pid, -, hp⟩ := List.mem_filterMap.mp hb'
    exact ⟨hhost.nonneg _ _ hp, hnarrow b (by rw [branches, List.mem_dedup]; exact hb')⟩
  obtain ⟨s, hs⟩ : ∃ s, s = (env.iter sent).foldl (searchMain narrow) ⟨-1, 0, 0⟩ := ⟨_, rfl⟩
  obtain ⟨t1, t2, t3, t4⟩ := searchMain_spec narrow (env.iter sent) (by
    intro x hx
    have hm := ((hit.mem sent x).mp hx).1
    have := hnn _ hm
    exact ⟨by omega, this.2⟩) ⟨-1, 0, 0⟩
  rw [← hs] at t1 t2 t3 t4 hstep
  simp only [zero_add] at t1 t4
  rw [iter_total hit] at t1
  have hcount : ∀ b, sent.count b = (ids.filterMap host).count b := fun b => hsent'.count_eq b
  have hlenI : (env.iter sent).length = (branches host ids).length := by
    have h1 := (iter_keys hit sent).length_eq
    rw [List.length_map] at h1
    rw [h1, branches]
    exact (hsent'.dedup).length_eq
  have hempty : branches host ids = [] ↔ sent = [] := by
    rw [branches, List.dedup_eq_nil]
    constructor
    · intro h; rw [h] at hsent'; exact hsent'.eq_nil
    · intro h; rw [h] at hsent'; exact hsent'.symm.eq_nil
  have hmain : (branches host ids = [] ∧ s.maxId = -1 ∧ s.maxCount = 0) ∨
      (IsMain host ids s.maxId ∧ s.maxCount = sent.count s.maxId ∧ 0 ≤ s.maxId) := by
    by_cases he : sent = []
    · left
      refine ⟨hempty.mpr he, ?_⟩
      have : env.iter sent = [] := by
        rw [List.eq_nil_iff_forall_not_mem]
        intro x hx
        have := ((hit.mem sent x).mp hx).1
        rw [he] at this
        simp at this
      rw [hs, this]
      exact ⟨rfl, rfl⟩
    · right
      obtain ⟨b, hb⟩ := List.exists_mem_of_ne_nil _ he
      have hbc := t3 (b, sent.count b) ((hit.mem sent _).mpr ⟨hb, rfl⟩)
      have hpos : 0 < sent.count b := List.count_pos_iff.mpr hb
      rcases t4 with ⟨j1, -⟩ | j
      · simp only at hbc; omega
      · obtain ⟨m1, m2⟩ := (hit.mem sent _).mp j
        simp only at m1 m2
        refine ⟨⟨?_, ?_⟩, m2, (hnn _ m1).1⟩
        · rw [branches, List.mem_dedup]; exact hsent'.mem_iff.mp m1
        · intro c hc
          rw [branches, List.mem_dedup] at hc
          have hc' := hsent'.mem_iff.mpr hc
          have := t3 (c, sent.count c) ((hit.mem sent _).mpr ⟨hc', rfl⟩)
          simp only at this
          rw [← hcount, ← hcount, ← m2]
          exact this
  have hfinal : R.map (fun p =>
      if branchCode (host p.pid) = s.maxId then { p with branch := -1 }
        else { p with branch := branchCode (host p.pid) })
      = R.map (fun p => { p with branch := finalBranch host s.maxId p.pid }) := by
    apply List.map_congr_left
    intro p hp
    by_cases hbm : branchCode (host p.pid) = s.maxId
    · rw [if_pos hbm]
      congr 1
      cases hc : host p.pid with
      | none => simp [finalBranch, hc]
      | some b =>
        rw [hc] at hbm
        simp only [branchCode] at hbm
        simp [finalBranch, hc, hbm]
    · rw [if_neg hbm]
      congr 1
      cases hc : host p.pid with
      | none => simp [finalBranch, hc, branchCode]
      | some b =>
        rw [hc] at hbm
        simp only [branchCode] at hbm
        simp [finalBranch, hc, hbm, branchCode]
  rw [hfinal] at hstep
  have hge : ∀ p ∈ R.map (fun p => { p with branch := finalBranch host s.maxId p.pid }), -1 ≤ p.branch := by
    intro p hp
    obtain ⟨q, -, rfl⟩ := List.mem_map.mp hp
    simp only [finalBranch]
    split
    · rename_i b hb
      have := hhost.nonneg _ _ hb
      split <;> omega
    · omega
  have hcnt : s.newFound - s.maxCount = ids.countP (fun pid => finalBranch host s.maxId pid != -1) := by
    have h1 : ids.countP (fun pid => finalBranch host s.maxId pid != -1)
        = (ids.filterMap host).countP (fun b => b != s.maxId) := by
      rw [List.countP_filterMap]
      apply List.countP_congr
      intro pid _
      simp only [finalBranch]
      cases hc : host pid with
      | none => simp
      | some b =>
        have := hhost.nonneg _ _ hc
        by_cases hbm : b = s.maxId
        · simp [hbm]
        · have hb1 : b ≠ -1 := by omega
          simp [hbm, hb1]
    have h2 : (ids.filterMap host).length
        = (ids.filterMap host).countP (fun b => b == s.maxId)
          + (ids.filterMap host).countP (fun b => b != s.maxId) := by
      rw [List.length_eq_countP_add_countP (p := fun b => b == s.maxId)]
      congr 1
      apply List.countP_congr
      intro b _
      simp [bne]
    have h3 : (ids.filterMap host).countP (fun b => b == s.maxId) = s.maxCount := by
      rcases hmain with ⟨e1, e2, e3⟩ | ⟨-, e2, -⟩
      · have : ids.filterMap host = [] := List.dedup_eq_nil _ |>.mp e1
        rw [this, e3]; rfl
      · rw [e2, hcount]; rfl
    rw [t1, hsent'.length_eq, h1]
    omega
  refine ⟨_, slaves', s.maxId, hstep, ?_, env.rootSort _, rfl, by rw [← hR]; exact hrs.perm _, ?_, ?_⟩
  · rcases hmain with ⟨e1, e2, -⟩ | ⟨e1, -⟩
    · exact Or.inl ⟨e1, e2⟩
    · exact Or.inr e1
  · simp only; rw [hcnt]
  · simp only
    have hd : root.nfound + (s.newFound - s.maxCount) - root.nfound = s.newFound - s.maxCount := by omega
    rw [hd]
    obtain ⟨a1, a2⟩ := branch_split _ (hrs.sorted (R.map (fun p =>
      { p with branch := finalBranch host s.maxId p.pid })))
      (fun p hp => hge p ((hrs.perm _).mem_iff.mp hp)) (s.newFound - s.maxCount) (by
        rw [(hrs.perm _).countP_eq, hcnt, hids, List.countP_map, List.countP_map]
        rfl)
    refine ⟨a1, a2, ?_⟩
    rw [hlenI]
    rcases hmain with ⟨e1, e2, -⟩ | ⟨e1, -, e3⟩
    · rw [if_pos e1, if_neg (by omega)]; omega
    · have hne : branches host ids ≠ [] := by
        intro h
        have := e1.1
        rw [h] at this
        simp at this
      rw [if_neg hne, if_pos (by omega)]
      omega

/-- **C50, finding.** The number of branches is wrong at every snapshot, for every input: the
background is subtracted although its particles are never sent. Each pass adds one less than the
number of side branches, and takes one away when no particle has a host. -/
theorem C50_count_finding {P : Nat} (narrow : Int → Int) (env : BranchEnv P) (host : Int → Option Int)
    (hhost : Hosted env.snap host) (hss : ∀ i, BranchSort (env.slaveSort i))
    (hrs : BranchSort env.rootSort) (hit : MapIteration env.iter)
    (ho : env.order.Perm (List.finRange P)) (root : TargetHalo) (slaves : Fin P → TargetHalo)
    (hready : BranchReady root slaves) (ids : List Int)
    (hids : ids = (root.parts.drop root.nfound).map (·.pid))
    (hnarrow : ∀ b ∈ branches host ids, narrow b = b) :
    ∃ root' slaves', branchStep narrow env (root, slaves) = .ok (root', slaves') ∧
      root'.nbranch = root.nbranch + (sideBranches host ids : Int) - 1 ∧
      root'.nbranch ≠ root.nbranch + (sideBranches host ids : Int) := by
  obtain ⟨root', slaves', main, h1, -, tail, -, -, -, -, -, h2⟩ := C50_particles narrow env host hhost
    hss hrs hit ho root slaves hready ids hids hnarrow
  refine ⟨root', slaves', h1, ?_⟩
  have : root'.nbranch = root.nbranch + (sideBranches host ids : Int) - 1 := by
    rw [h2, sideBranches]
    split
    · rename_i he
      rw [he]; simp
    · rename_i he
      have : 0 < (branches host ids).length := List.length_pos_iff.mpr he
      omega
  exact ⟨this, by omega⟩

/-- **C50, finding.** As soon as one snapshot settles a particle on a side branch, the next pass is
undefined on any number of slaves: the master broadcasts the unsettled particles only, while the
slaves, which are never told, wait for all of them. -/
theorem C50_second_pass_finding {P : Nat} (hP : 0 < P) (narrow : Int → Int) (e₁ e₂ : BranchEnv P)
    (rest : List (BranchEnv P)) (host : Int → Option Int)
    (hhost : Hosted e₁.snap host) (hss : ∀ i, BranchSort (e₁.slaveSort i))
    (hrs : BranchSort e₁.rootSort) (hit : MapIteration e₁.iter)
    (ho : e₁.order.Perm (List.finRange P)) (root : TargetHalo) (slaves : Fin P → TargetHalo)
    (hready : BranchReady root slaves) (ids : List Int)
    (hids : ids = (root.parts.drop root.nfound).map (·.pid))
    (hnarrow : ∀ b ∈ branches host ids, narrow b = b)
    (hside : 1 < (branches host ids).length) :
    branchRun narrow (e₁ :: e₂ :: rest) (root, slaves) = .ub := by
  obtain ⟨root', slaves', main, h1, h2, tail, -, -, h3, -, -, -⟩ := C50_particles narrow e₁ host hhost
    hss hrs hit ho root slaves hready ids hids hnarrow
  obtain ⟨sent, -, slaves'', hsl, hstep⟩ := step_eq narrow e₁ host hhost hss ho root slaves hready
  have hse : slaves'' = slaves' := by
    rw [h1] at hstep
    exact (congrArg Prod.snd (Outcome.ok.inj hstep)).symm
  have hmain : IsMain host ids main := by
    rcases h2 with ⟨e, -⟩ | h
    · rw [e] at hside; simp at hside
    · exact h
  have hgrow : root.nfound < root'.nfound := by
    rw [h3]
    have : 0 < ids.countP (fun pid => finalBranch host main pid != -1) := by
      obtain ⟨b, hb, hbm⟩ : ∃ b ∈ branches host ids, b ≠ main := by
        by_contra hc
        push Not at hc
        have hnd : (branches host ids).Nodup := List.nodup_dedup _
        match hbl : branches host ids, hside, hc, hnd with
        | x :: y :: l, _, hc, hnd =>
          have h1 := hc x (by simp)
          have h2 := hc y (by simp)
          rw [h1, h2] at hnd
          simp at hnd
      rw [branches, List.mem_dedup] at hb
      obtain ⟨pid, hp, hpb⟩ := List.mem_filterMap.mp hb
      rw [List.countP_pos_iff]
      refine ⟨pid, hp, ?_⟩
      have := hhost.nonneg _ _ hpb
      simp only [finalBranch, hpb, if_neg hbm, bne_iff_ne, ne_eq]
      omega
    omega
  rw [branchRun, h1, Outcome.bind_ok, branchRun, branchStep]
  simp only
  have hub : allRanks P (fun i => bcastTarget root' (slaves' i)) = .ub := by
    cases P with
    | zero => omega
    | succ P =>
      rw [allRanks]
      have : bcastTarget root' (slaves' 0) = .ub := by
        rw [bcastTarget, if_neg]
        rw [← hse, hsl, hready.agree]
        omega
      rw [this]
      rfl
  rw [hub]
  rfl

/-! ## A concrete snapshot: particles 1 and 2 in halo 5, particle 3 in halo 6 (both on the first
slave), particle 4 in halo 7 on the second slave, particle 5 in no halo. -/

def branchSort (l : List BranchPart) : List BranchPart := l.insertionSort (fun a b => b.branch ≤ a.branch)

theorem branchSort_spec : BranchSort branchSort where
  perm l := List.perm_insertionSort _ l
  sorted l := by
    haveI : Std.Total (fun a b : BranchPart => b.branch ≤ a.branch) := ⟨fun a b => le_total b.branch a.branch⟩
    haveI : IsTrans BranchPart (fun a b : BranchPart => b.branch ≤ a.branch) :=
      ⟨fun a b c h1 h2 => le_trans h2 h1⟩
    exact List.pairwise_insertionSort _ l

def countKeys (ids : List Int) : List (Int × Nat) := ids.dedup.map (fun b => (b, ids.count b))

theorem countKeys_spec : MapIteration countKeys where
  nodup ids := by
    have : (countKeys ids).map (·.1) = ids.dedup := by simp [countKeys, Function.comp_def]
    rw [this]
    exact List.nodup_dedup ids
  mem ids x := by
    simp only [countKeys, List.mem_map, List.mem_dedup]
    constructor
    · rintro ⟨b, hb, rfl⟩; exact ⟨hb, rfl⟩
    · rintro ⟨h1, h2⟩; exact ⟨x.1, h1, by rw [← h2]⟩

def branchSnap : Fin 2 → SlaveSnap :=
  fun i => if i = 0 then
      ⟨fun pid => if pid = 1 ∨ pid = 2 then 0 else if pid = 3 then 1 else -1, [5, 6], 1⟩
    else ⟨fun pid => if pid = 4 then 0 else -1, [7], 1⟩

def branchHost (pid : Int) : Option Int :=
  if pid = 1 ∨ pid = 2 then some (5 + 1 * branchBase)
  else if pid = 3 then some (6 + 1 * branchBase)
  else if pid = 4 then some (7 + 1 * branchBase) else none

def branchEnv : BranchEnv 2 := ⟨branchSnap, fun _ => branchSort, branchSort, countKeys, [1, 0]⟩
def branchTarget : TargetHalo := ⟨[⟨1, -1, 0, 0⟩, ⟨2, -1, 0, 1⟩, ⟨3, -1, 0, 2⟩, ⟨4, -1, 0, 3⟩, ⟨5, -1, 0, 4⟩], 0, 0⟩

-- The hypotheses of C50_particles, C50_count_finding and C50_second_pass_finding hold of it.
example : Hosted branchEnv.snap branchHost := by
  have h0 : branchEnv.snap 0 = branchSnap 0 := rfl
  refine ⟨?_, ?_, ?_⟩
  · intro pid b h
    unfold branchHost at h
    split at h
    · rename_i hp
      refine ⟨0, 0, by decide, ?_, ?_, ?_⟩
      · simp [branchEnv, branchSnap, hp]
      · simpa [branchEnv, branchSnap] using h
      · intro j hj
        have : j = 1 := by omega
        subst this
        have : pid ≠ 4 := by omega
        simp [branchEnv, branchSnap, this]
    · split at h
      · rename_i hp hp3
        refine ⟨0, 1, by decide, ?_, ?_, ?_⟩
        · simp [branchEnv, branchSnap, hp, hp3]
        · simpa [branchEnv, branchSnap] using h
        · intro j hj
          have : j = 1 := by omega
          subst this
          have : pid ≠ 4 := by omega
          simp [branchEnv, branchSnap, this]
      · split at h
        · rename_i hp hp3 hp4
          refine ⟨1, 0, by decide, ?_, ?_, ?_⟩
          · simp [branchEnv, branchSnap, hp4]
          · simpa [branchEnv, branchSnap] using h
          · intro j hj
            have : j = 0 := by omega
            subst this
            simp [branchEnv, branchSnap, hp, hp3]
        · exact absurd h (by simp)
  · intro pid h i
    unfold branchHost at h
    split at h
    · exact absurd h (by simp)
    · split at h
      · exact absurd h (by simp)
      · split at h
        · exact absurd h (by simp)
        · rename_i hp hp3 hp4
          have : i = 0 ∨ i = 1 := by omega
          rcases this with rfl | rfl
          · simp [branchEnv, branchSnap, hp, hp3]
          · simp [branchEnv, branchSnap, hp4]
  · intro pid b h
    unfold branchHost branchBase at h
    split at h
    · simp at h; omega
    · split at h
      · simp at h; omega
      · split at h
        · simp at h; omega
        · exact absurd h (by simp)

example : BranchReady branchTarget (fun _ : Fin 2 => ⟨[], 0, 0⟩) ∧
    branchEnv.order.Perm (List.finRange 2) ∧
    1 < (branches branchHost ((branchTarget.parts.drop branchTarget.nfound).map (·.pid))).length := by
  refine ⟨⟨by decide, fun _ => rfl, fun _ => Nat.zero_le _, by decide⟩, by decide, by decide +kernel⟩

-- Two side branches, one reported. Two particles settled, those of haloes 7 and 6.
example : (match branchStep id branchEnv (branchTarget, fun _ => ⟨[], 0, 0⟩) with
    | .ok st => (st.1.nfound, st.1.nbranch, st.1.parts.map (fun p => (p.pid, p.branch)))
    | _ => (0, 0, [])) =
    (2, 1, [(4, 7 + branchBase), (3, 6 + branchBase), (1, -1), (2, -1), (5, -1)]) := by decide +kernel

/-- Conversion of a `long` to a 32-bit `HBTInt`. -/
def narrow32 (x : Int) : Int := (x + 2147483648) % 4294967296 - 2147483648

/-- **C50, finding.** With a 32-bit `HBTInt` the main branch's number does not fit `MaxBId`, so its
particles are not cleared: four particles carry a branch, only two are counted as settled. -/
theorem C50_narrow_finding :
    (match branchStep narrow32 branchEnv (branchTarget, fun _ => ⟨[], 0, 0⟩) with
    | .ok st => (st.1.nfound, (st.1.parts.filter (fun p => p.branch != -1)).map (·.pid))
    | _ => (0, [])) = (2, [4, 3, 1, 2]) := by decide +kernel

end HBT.Props
