import Verif.Lemmas.ThreadsMerge
/-!
# Helper lemmas: `LevelUpDetachedSubhalos` and the heads under every schedule
-/
namespace HBT.Threads
open HBT HBT.Model HBT.Spec HBT.Spec.Forest
variable {K D E S Q α : Type} {bad : Access Loc (Loc.Val K D) → Access Loc (Loc.Val K D) → Prop}
variable {A : Access Loc (Loc.Val K D) → Prop}

/-! ## The memory -/

theorem does_isHead {w : World K D} {h : Nat} {b : Bool} (hl : h < w.isHead.length) (hA : A (.write (.isHead h) b)) :
    Does A (store (Loc.isHead h) b) (memOf w) () (memOf { w with isHead := w.isHead.set h b }) := by
  have := Does.store (A := A) (ℓ := Loc.isHead h) (m := memOf w) (old := w.isHead[h]) b (by simp [memOf, hl]) hA
  have e : Function.update (memOf w) (.isHead h) (some b) = memOf { w with isHead := w.isHead.set h b } := by
    funext ℓ
    by_cases e : ℓ = .isHead h
    · subst e; rw [Function.update_self]; simp [memOf, hl]
    · rw [Function.update_of_ne e]
      cases ℓ with
      | isHead j =>
        have : h ≠ j := fun hj => e (by rw [hj])
        simp [memOf, List.getElem?_set_ne this]
      | _ => rfl
  rwa [e] at this

theorem does_heads {w : World K D} {h : Nat} {b : List Nat} (hl : h < w.heads.length) (hA : A (.write (.heads h) b)) :
    Does A (store (Loc.heads h) b) (memOf w) () (memOf { w with heads := w.heads.set h b }) := by
  have := Does.store (A := A) (ℓ := Loc.heads h) (m := memOf w) (old := w.heads[h]) b (by simp [memOf, hl]) hA
  have e : Function.update (memOf w) (.heads h) (some b) = memOf { w with heads := w.heads.set h b } := by
    funext ℓ
    by_cases e : ℓ = .heads h
    · subst e; rw [Function.update_self]; simp [memOf, hl]
    · rw [Function.update_of_ne e]
      cases ℓ with
      | heads j =>
        have : h ≠ j := fun hj => e (by rw [hj])
        simp [memOf, List.getElem?_set_ne this]
      | _ => rfl
  rwa [e] at this

/-! ## The ranks -/

theorem isHead_completes (hbad : ∀ a b, bad a b → Races a b) {w : World K D} (hl : w.isHead.length = w.subs.length) :
    ∃ l, Completes bad [(List.range w.subs.length).map isHeadP] (memOf w) (memOf { w with isHead := l }) ∧
      ∀ (i : Nat) (s : Sub K D), w.subs[i]? = some s → l[i]? = some (decide (s.rank = 0)) := by
  obtain ⟨l, e, h1, h2⟩ := runAll_set (fun i => decide ((w.subs[i]?).map Sub.rank = some 0)) (List.range w.subs.length) w.isHead
    (fun i hi => by rw [hl]; exact List.mem_range.1 hi)
  refine ⟨l, ?_, fun i s hs => ?_⟩
  · refine foot_loop (σ := List Bool) (st := w.isHead) hbad (fun x => memOf { w with isHead := x }) _ isHeadP (fun _ ℓ => ∃ j f, ℓ = .sub j f)
      (fun i ℓ => ℓ = .isHead i) (fun _ _ => True) List.nodup_range (List.Perm.refl _) ?_ ?_
      (fun _ _ _ _ _ _ _ _ _ _ => trivial) (fun _ _ => trivial) e
    · rintro i _ j _ hne ℓ rfl
      refine ⟨(by rintro ⟨j', f, e⟩; cases e), ?_⟩
      intro e
      cases e
      exact hne rfl
    · intro i hi x x' _ hf
      obtain ⟨hil, rfl⟩ := set_ok hf
      have hs : w.subs[i]? = some (w.subs[i]'(List.mem_range.1 hi)) := List.getElem?_eq_getElem _
      rw [isHeadP]
      refine Does.bind (does_rd (w := { w with isHead := x }) hs (Or.inl ⟨i, _, rfl⟩)) ?_
      rw [hs, Option.map_some]
      simp only [Option.some.injEq]
      exact does_isHead (w := { w with isHead := x }) hil rfl
  · have hi := (List.getElem?_eq_some_iff.1 hs).1
    rw [(h2 i (by omega)).1 (List.mem_range.2 hi), hs]
    simp

/-- One iteration over the centrals. -/
def centralRank (g : List Nat) (st : List (Sub K D)) : Outcome (List (Sub K D)) :=
  match g with
  | [] => .ok st
  | c :: _ => applyAt (fun s => .ok (s.withRank 0)) c st

theorem rankZero_fold : ∀ (ids : List Nat) (st : List (Sub K D)),
    rankZero ids st = foldOk (applyAt (fun s => .ok (s.withRank 0))) ids st := by
  intro ids
  induction ids with
  | nil => intro st; rfl
  | cons i ids ih =>
    intro st
    rw [rankZero, foldOk, applyAt]
    cases Outcome.get st i with
    | ok s =>
      simp only [Outcome.bind_ok]
      cases Outcome.set st i (s.withRank 0) with
      | ok st1 => exact ih st1
      | ub => rfl
      | abort => rfl
      | diverge => rfl
    | ub => rfl
    | abort => rfl
    | diverge => rfl

theorem centralRank_fold : ∀ (gs : List (List Nat)) (st : List (Sub K D)),
    rankZero (centralsOf gs) st = foldOk centralRank gs st := by
  intro gs
  induction gs with
  | nil => intro st; rfl
  | cons g gs ih =>
    intro st
    cases g with
    | nil =>
      rw [foldOk, centralRank, Outcome.bind_ok, ← ih]
      rfl
    | cons c t =>
      have : centralsOf ((c :: t) :: gs) = c :: centralsOf gs := rfl
      rw [this, rankZero_fold, foldOk, foldOk, centralRank]
      cases applyAt (fun s => .ok (s.withRank 0)) c st with
      | ok st1 => rw [Outcome.bind_ok, Outcome.bind_ok, ← rankZero_fold, ih]
      | ub => rfl
      | abort => rfl
      | diverge => rfl

theorem rank_sim {w : World K D} {c : Nat} (hown : Owns A c) {st st' : List (Sub K D)} (h : applyAt (fun s => .ok (s.withRank 0)) c st = .ok st') :
    Sim A w (wr c .rank 0) st () st' := by
  rw [applyAt] at h
  obtain ⟨s, h1, h2⟩ := bind_eq_ok h
  rw [Outcome.bind_ok] at h2
  obtain ⟨_, rfl⟩ := set_ok h2
  exact Sim.wr (get_ok h1) (f := .rank) _ ((hown _).2 _)

/-- Nothing but ranks has changed. -/
def RanksOnly (st st' : List (Sub K D)) : Prop := st'.map Sub.nested = st.map Sub.nested

theorem rank_nested {c : Nat} {st st' : List (Sub K D)} (h : applyAt (fun s => .ok (s.withRank 0)) c st = .ok st') : RanksOnly st st' := by
  rw [applyAt] at h
  obtain ⟨s, h1, h2⟩ := bind_eq_ok h
  rw [Outcome.bind_ok] at h2
  obtain ⟨_, rfl⟩ := set_ok h2
  exact map_set_same Sub.nested (get_ok h1) rfl

theorem fold_nested {γ : Type} {f : γ → List (Sub K D) → Outcome (List (Sub K D))} (hf : ∀ x st st', f x st = .ok st' → RanksOnly st st') :
    ∀ (xs : List γ) (st st' : List (Sub K D)), foldOk f xs st = .ok st' → RanksOnly st st' := by
  intro xs
  induction xs with
  | nil => intro st st' h; cases h; rfl
  | cons x xs ih =>
    intro st st' h
    rw [foldOk] at h
    obtain ⟨st1, h1, h2⟩ := bind_eq_ok h
    exact (ih _ _ h2).trans (hf _ _ _ h1)

theorem centralRank_completes (hbad : ∀ a b, bad a b → Races a b) {w : World K D}
    (hdis : ∀ a b, a ≠ b → ∀ x, memberOf w.groups a x → ¬ memberOf w.groups b x) {out : List (Sub K D)}
    (hrun : rankZero (centralsOf w.groups) w.subs = .ok out) :
    Completes bad [(List.range w.groups.length).map centralRankP] (memOf w) (memOf (w.withSubs out)) := by
  rw [centralRank_fold, ← runAll_range] at hrun
  refine (subs_loop hbad w _ centralRankP (memberOf w.groups) (fun _ _ => True) List.nodup_range (List.Perm.refl _)
    (fun i _ j hne x => hdis i j hne x) ?_ (fun _ _ _ _ _ => trivial) (fun _ _ => trivial) hrun).1
  intro i hi st st' _ hf
  refine ⟨?_, trivial⟩
  obtain ⟨g, h1, h2⟩ := bind_eq_ok hf
  have hg := get_ok h1
  have hld : Sim (ownFoot (memberOf w.groups i)) w (load (Loc.group i)) st g st := Sim.load hg (own_read (by simp))
  rw [centralRankP]
  refine Sim.bind hld ?_
  cases g with
  | nil => cases h2; exact Sim.pure _
  | cons c t => exact rank_sim (ownFoot_owns ⟨_, hg, List.mem_cons_self⟩) h2

theorem fieldRank_completes (hbad : ∀ a b, bad a b → Races a b) {w : World K D} (hnd : w.field.Nodup) {out : List (Sub K D)}
    (hrun : rankZero w.field w.subs = .ok out) :
    Completes bad [(List.range w.field.length).map fieldRankP] (memOf w) (memOf (w.withSubs out)) := by
  rw [rankZero_fold, ← runAll_range] at hrun
  refine (subs_loop hbad w _ fieldRankP (fun j x => w.field[j]? = some x) (fun _ _ => True) List.nodup_range (List.Perm.refl _)
    ?_ ?_ (fun _ _ _ _ _ => trivial) (fun _ _ => trivial) hrun).1
  · intro i hi j hne x hx hy
    exact hne (List.nodup_iff_injective_get.1 hnd |> fun hinj => by
      obtain ⟨h1, e1⟩ := List.getElem?_eq_some_iff.1 hx
      obtain ⟨h2, e2⟩ := List.getElem?_eq_some_iff.1 hy
      have := @hinj ⟨i, h1⟩ ⟨j, h2⟩ (by simp [e1, e2])
      simpa using this)
  · intro i hi st st' _ hf
    refine ⟨?_, trivial⟩
    obtain ⟨c, h1, h2⟩ := bind_eq_ok hf
    have hc := get_ok h1
    have hld : Sim (ownFoot (fun x => w.field[i]? = some x)) w (load Loc.field) st w.field st := Sim.load rfl (own_read (by simp))
    rw [fieldRankP]
    refine Sim.bind hld ?_
    have := rank_sim (w := w) (ownFoot_owns (T := fun x => w.field[i]? = some x) hc) h2
    revert this
    generalize (ownFoot (fun x => w.field[i]? = some x) : Access Loc (Loc.Val K D) → Prop) = A'
    intro this
    rw [hc]
    exact this

/-! ## `LevelUpDetachedMembers` -/

theorem detach_sim {w : World K D} {T : Nat → Prop} (hown : ∀ i, T i → Owns A i) {host : Int} {k : Nat} (hk : T k) {t : Sub K D} {st st1 : List (Sub K D)}
    (ht : st[k]? = some t) (hcl : Closed T st) (h : detach host k t st = .ok st1) (hc : t.hostHaloId ≠ host ∨ t.rank = 0) :
    (t.rank = 0 ∧ st1 = st ∨ t.rank ≠ 0 ∧ Sim A w (wr k .rank 0) st () st1) ∧ Closed T st1 := by
  rw [detach, if_pos hc] at h
  obtain ⟨hi, rfl⟩ := set_ok h
  refine ⟨?_, hcl.set (fun _ k' hk' h0 => hcl k t hk ht k' hk' h0)⟩
  by_cases hr : t.rank = 0
  · have : t.withRank 0 = t := by rw [← hr]; rfl
    rw [this, set_self ht]
    exact Or.inl ⟨hr, rfl⟩
  · exact Or.inr ⟨hr, Sim.wr ht (f := .rank) _ ((hown _ hk _).2 _)⟩

theorem levelUpKids_sim {w : World K D} {T : Nat → Prop} (hown : ∀ i, T i → Owns A i) {rec : Nat → List (Sub K D) → Outcome (List (Sub K D))}
    {recP : Nat → TProg K D Unit} {host : Int}
    (hrec : ∀ i, T i → ∀ st st', Closed T st → rec i st = .ok st' → Sim A w (recP i) st () st' ∧ Closed T st') :
    ∀ (ks : List Int) (st : List (Sub K D)) (r : List Int × List (Sub K D)), (∀ k ∈ ks, 0 ≤ k → T k.toNat) → Closed T st →
      levelUpKids rec host ks st = .ok r → Sim A w (levelUpKidsP recP host ks) st r.1 r.2 ∧ Closed T r.2 := by
  intro ks
  induction ks with
  | nil => intro st r _ hcl h; cases h; exact ⟨Sim.pure _, hcl⟩
  | cons k ks ih =>
    intro st r hks hcl h
    rw [levelUpKids] at h
    obtain ⟨t, h1, h⟩ := bind_eq_ok h
    obtain ⟨st1, h2, h⟩ := bind_eq_ok h
    obtain ⟨st2, h3, h⟩ := bind_eq_ok h
    obtain ⟨⟨kept, st3⟩, h4, hfin⟩ := bind_eq_ok h
    obtain ⟨hk0, ht⟩ := getI_ok h1
    have hk := hks k List.mem_cons_self hk0
    have hks' : ∀ k' ∈ ks, 0 ≤ k' → T k'.toNat := fun k' hk' => hks k' (List.mem_cons_of_mem _ hk')
    rw [levelUpKidsP, if_neg (by omega)]
    have hO := hown _ hk
    by_cases hc : t.hostHaloId ≠ host ∨ t.rank = 0
    · obtain ⟨s1, c1⟩ := detach_sim (w := w) hown hk ht hcl h2 hc
      obtain ⟨s2, c2⟩ := hrec _ hk _ _ c1 h3
      obtain ⟨s3, c3⟩ := ih _ _ hks' c2 h4
      simp only [if_pos hc] at hfin
      cases hfin
      refine ⟨?_, c3⟩
      refine Sim.bind (Sim.rd ht (hO _).1) (Sim.bind (Sim.rd ht (hO _).1) ?_)
      rw [if_pos (show Field.get .hostHaloId t ≠ host ∨ Field.get .rank t = 0 from hc)]
      rcases s1 with ⟨hr, rfl⟩ | ⟨hr, s1⟩
      · rw [if_neg (show ¬ Field.get .rank t ≠ 0 from fun h => h hr)]
        exact Sim.bind s2 s3
      · rw [if_pos (show Field.get .rank t ≠ 0 from hr)]
        exact Sim.bind s1 (Sim.bind s2 s3)
    · rw [detach, if_neg hc] at h2
      injection h2 with h2
      subst h2
      obtain ⟨s2, c2⟩ := hrec _ hk _ _ hcl h3
      obtain ⟨s3, c3⟩ := ih _ _ hks' c2 h4
      simp only [if_neg hc] at hfin
      cases hfin
      refine ⟨?_, c3⟩
      refine Sim.bind (Sim.rd ht (hO _).1) (Sim.bind (Sim.rd ht (hO _).1) ?_)
      rw [if_neg (show ¬ (Field.get .hostHaloId t ≠ host ∨ Field.get .rank t = 0) from hc)]
      exact Sim.bind s2 (Sim.bind s3 (Sim.pure _))

theorem levelUpKids_kept {rec : Nat → List (Sub K D) → Outcome (List (Sub K D))} {host : Int} : ∀ (ks : List Int) (st : List (Sub K D)) (r : List Int × List (Sub K D)),
    levelUpKids rec host ks st = .ok r → ∀ k ∈ r.1, k ∈ ks := by
  intro ks
  induction ks with
  | nil => intro st r h; cases h; exact fun _ h => h
  | cons k ks ih =>
    intro st r h
    rw [levelUpKids] at h
    obtain ⟨t, h1, h⟩ := bind_eq_ok h
    obtain ⟨st1, h2, h⟩ := bind_eq_ok h
    obtain ⟨st2, h3, h⟩ := bind_eq_ok h
    obtain ⟨⟨kept, st3⟩, h4, h⟩ := bind_eq_ok h
    cases h
    have := ih _ _ h4
    simp only at this ⊢
    intro k' hk'
    split_ifs at hk'
    · exact List.mem_cons_of_mem _ (this _ hk')
    · rcases List.mem_cons.1 hk' with rfl | hk'
      · exact List.mem_cons_self
      · exact List.mem_cons_of_mem _ (this _ hk')

theorem levelUp_sim {w : World K D} {T : Nat → Prop} (hown : ∀ i, T i → Owns A i) : ∀ (fuel id : Nat), T id → ∀ st st', Closed T st →
    levelUpMembers fuel id st = .ok st' → Sim A w (levelUpP fuel id) st () st' ∧ Closed T st' := by
  intro fuel
  induction fuel with
  | zero => intro id _ st st' _ h; cases h
  | succ fuel ih =>
    intro id hid st st' hcl h
    rw [levelUpMembers] at h
    obtain ⟨s, h1, h⟩ := bind_eq_ok h
    obtain ⟨⟨kept, st1⟩, h2, h⟩ := bind_eq_ok h
    obtain ⟨s', h3, h⟩ := bind_eq_ok h
    have hs := get_ok h1
    have hO := hown _ hid
    obtain ⟨sk, ck⟩ := levelUpKids_sim (w := w) hown (fun i hi a b => ih i hi a b) _ _ _ (hcl id s hid hs) hcl h2
    obtain ⟨_, rfl⟩ := set_ok h
    rw [levelUpP]
    refine ⟨?_, ?_⟩
    · refine Sim.bind (Sim.rd hs (hO _).1) (Sim.bind (Sim.rd hs (hO _).1) (Sim.bind sk ?_))
      exact Sim.wr (get_ok h3) (f := .nested) _ ((hO _).2 _)
    · refine ck.set (fun _ k hk h0 => ?_)
      exact hcl id s hid hs k (levelUpKids_kept _ _ _ h2 k hk) h0

/-! ## The trees of the heads -/

/-- `b` is in the nest of `a`. -/
def Kid (subs : List (Sub K D)) (a b : Nat) : Prop := ∃ s, subs[a]? = some s ∧ (b : Int) ∈ s.nested

/-- `x` is in the tree of the head `i`. -/
def treeOf (subs : List (Sub K D)) (i x : Nat) : Prop := (∃ s, subs[i]? = some s ∧ s.rank = 0) ∧ Relation.ReflTransGen (Kid subs) i x

theorem kid_child {subs : List (Sub K D)} {F : Forest Nat} (hF : IdxForest subs F) {a b : Nat} (h : Kid subs a b) : IsChild a b F := by
  obtain ⟨s, hs, hb⟩ := h
  have ha : a ∈ F.nodes := hF.mem.2 (List.getElem?_eq_some_iff.1 hs).1
  obtain ⟨l, s', q1, q2⟩ := shows_mem hF.shows_ ha
  rw [hs] at q1
  cases q1
  have hbl : b ∈ l := by
    rw [q2] at hb
    obtain ⟨z, hz, hze⟩ := List.mem_map.1 hb
    have : z = b := by exact_mod_cast hze
    rwa [this] at hz
  exact kids_isChild (idxKids_unique _) ⟨_, hs, q2⟩ hbl hF.shows_ ha

theorem tree_apart {subs : List (Sub K D)} {F : Forest Nat} (hF : IdxForest subs F) {i j : Nat} (hne : i ≠ j) {x : Nat} (hi : treeOf subs i x) : ¬ treeOf subs j x := by
  obtain ⟨⟨s, hs, hs0⟩, hi⟩ := hi
  rintro ⟨⟨t, ht, ht0⟩, hj⟩
  have hroot : ∀ k u, subs[k]? = some u → u.rank = 0 → ∀ a, ¬ Kid subs a k := fun k u hu h0 a ha =>
    root_not_child hF.nodup ((hF.rank k u hu).1 h0) a (kid_child hF ha)
  have hu : Relator.RightUnique (fun a b => Kid subs b a) := fun a b c h1 h2 => isChild_unique hF.nodup (kid_child hF h1) (kid_child hF h2)
  have up : ∀ {a b}, Relation.ReflTransGen (Kid subs) a b → Relation.ReflTransGen (fun a b => Kid subs b a) b a := fun h => Relation.reflTransGen_swap.1 h
  have stop : ∀ {a b}, Relation.ReflTransGen (fun a b => Kid subs b a) a b → (∀ c, ¬ Kid subs c a) → a = b := by
    intro a b h hno
    rcases Relation.ReflTransGen.cases_head h with h | ⟨c, h, _⟩
    · exact h
    · exact absurd h (hno c)
  rcases Relation.ReflTransGen.total_of_right_unique hu (up hi) (up hj) with h | h
  · exact hne (stop h (hroot i s hs hs0))
  · exact hne (stop h (hroot j t ht ht0)).symm

theorem tree_closed {subs st : List (Sub K D)} (hr : RanksOnly subs st) (i : Nat) : Closed (treeOf subs i) st := by
  rintro x s ⟨h0, hx⟩ hs k hk hk0
  refine ⟨h0, hx.tail ?_⟩
  have : (st.map Sub.nested)[x]? = some s.nested := by rw [List.getElem?_map, hs]; rfl
  rw [hr, List.getElem?_map] at this
  obtain ⟨u, hu, he⟩ := Option.map_eq_some_iff.1 this
  exact ⟨u, hu, by rw [he, Int.toNat_of_nonneg hk0]; exact hk⟩

theorem levelUpEach_filter (fuel : Nat) (P : Nat → Bool) : ∀ (is : List Nat) (st : List (Sub K D)),
    levelUpEach fuel (is.filter P) st = runAll (fun i st => if P i then levelUpMembers fuel i st else .ok st) is st := by
  intro is
  induction is with
  | nil => intro st; rfl
  | cons i is ih =>
    intro st
    rw [runAll]
    by_cases hp : P i = true
    · rw [List.filter_cons_of_pos hp, levelUpEach, if_pos hp]
      cases levelUpMembers fuel i st with
      | ok st1 => exact ih st1
      | ub => rfl
      | abort => rfl
      | diverge => rfl
    · rw [List.filter_cons_of_neg hp, if_neg hp, Outcome.bind_ok, ih]

theorem levelUp_completes (hbad : ∀ a b, bad a b → Races a b) {w : World K D} {before : List (Sub K D)} {F : Forest Nat} (hF : IdxForest before F)
    (hr : RanksOnly before w.subs) (hh : ∀ (i : Nat) (s : Sub K D), before[i]? = some s → w.isHead[i]? = some (decide (s.rank = 0))) {fuel : Nat} {order : List Nat}
    (ho : order.Perm (List.range w.subs.length)) {out : List (Sub K D)}
    (hrun : levelUpEach fuel (order.filter (fun i => (before.map (fun s => decide (s.rank = 0)))[i]? == some true)) w.subs = .ok out) :
    Completes bad [(List.range w.subs.length).map (levelUpHeadP fuel)] (memOf w) (memOf (w.withSubs out)) ∧ out.length = w.subs.length := by
  rw [levelUpEach_filter] at hrun
  have hlen : before.length = w.subs.length := by have := congrArg List.length hr; simpa using this.symm
  have key := subs_loop hbad w _ (levelUpHeadP fuel) (treeOf before) (fun i => Closed (treeOf before i)) (ho.nodup_iff.2 List.nodup_range) ho
    (fun i _ j hne x => tree_apart hF hne) ?_ (fun j st st' hp he => hp.local he) (fun i _ => tree_closed hr i) hrun
  · exact ⟨key.1, key.2.1⟩
  · intro i hi st st' hp hf
    have hi' : i < before.length := by rw [hlen]; exact List.mem_range.1 (ho.mem_iff.1 hi)
    have hs : before[i]? = some before[i] := List.getElem?_eq_getElem hi'
    have hld : Sim (ownFoot (treeOf before i)) w (load (Loc.isHead i)) st (decide (before[i].rank = 0)) st := Sim.load (hh i _ hs) (own_read (by simp))
    rw [List.getElem?_map, hs, Option.map_some] at hf
    rw [levelUpHeadP]
    by_cases h0 : before[i].rank = 0
    · simp only [h0, decide_true] at hf hld
      rw [if_pos (by simp)] at hf
      obtain ⟨s1, c1⟩ := levelUp_sim (w := w) (T := treeOf before i) (A := ownFoot (treeOf before i)) (fun i => ownFoot_owns) fuel i ⟨⟨_, hs, h0⟩, .refl⟩ st st' hp hf
      exact ⟨Sim.bind hld s1, c1⟩
    · simp only [h0, decide_false] at hf hld
      rw [if_neg (by simp)] at hf
      cases hf
      exact ⟨Sim.bind hld (Sim.pure _), hp⟩

/-! ## The heads -/

theorem tops_does {w : World K D} : ∀ (g hs : List Nat), (∀ i ∈ g, A (.read (.sub i .rank))) → headsOf w.subs g = .ok hs →
    Does A (topsP g) (memOf w) hs (memOf w) := by
  intro g
  induction g with
  | nil => intro hs _ h; cases h; exact Does.pure _ _ _
  | cons i g ih =>
    intro hs hA h
    rw [headsOf] at h
    obtain ⟨s, h1, h⟩ := bind_eq_ok h
    obtain ⟨hs', h2, h⟩ := bind_eq_ok h
    cases h
    rw [topsP]
    exact Does.bind (does_rd (get_ok h1) (hA i List.mem_cons_self)) (Does.bind (ih _ (fun j hj => hA j (List.mem_cons_of_mem _ hj)) h2) (Does.pure _ _ _))

theorem headGroups_get {subs : List (Sub K D)} : ∀ (gs hs : List (List Nat)), headGroups subs gs = .ok hs →
    List.Forall₂ (fun g h => headsOf subs g = .ok h) gs hs := by
  intro gs
  induction gs with
  | nil => intro hs h; cases h; exact .nil
  | cons g gs ih =>
    intro hs h
    rw [headGroups] at h
    obtain ⟨x, h1, h⟩ := bind_eq_ok h
    obtain ⟨y, h2, h⟩ := bind_eq_ok h
    cases h
    exact .cons h1 (ih _ h2)

theorem headGroups_completes (hbad : ∀ a b, bad a b → Races a b) {w : World K D} (hl : w.heads.length = w.groups.length) {heads : List (List Nat)}
    (hrun : headGroups w.subs w.groups = .ok heads) :
    Completes bad [(List.range w.groups.length).map headGroupP] (memOf w) (memOf { w with heads := heads }) := by
  obtain ⟨hlen, hget⟩ := List.forall₂_iff_get.1 (headGroups_get _ _ hrun)
  obtain ⟨l, e, h1, h2⟩ := runAll_set (fun i => (heads[i]?).getD []) (List.range w.groups.length) w.heads
    (fun i hi => by rw [hl]; exact List.mem_range.1 hi)
  have hle : l = heads := by
    apply List.ext_getElem?
    intro i
    by_cases hi : i < w.groups.length
    · rw [(h2 i (by omega)).1 (List.mem_range.2 hi), List.getElem?_eq_getElem (by omega)]
      rfl
    · rw [List.getElem?_eq_none (by omega), List.getElem?_eq_none (by omega)]
  subst hle
  refine foot_loop (σ := List (List Nat)) (st := w.heads) hbad (fun x => memOf { w with heads := x }) _ headGroupP
    (fun _ ℓ => (∃ j f, ℓ = .sub j f) ∨ ∃ n, ℓ = .group n)
    (fun i ℓ => ℓ = .heads i) (fun _ _ => True) List.nodup_range (List.Perm.refl _) ?_ ?_
    (fun _ _ _ _ _ _ _ _ _ _ => trivial) (fun _ _ => trivial) e
  · rintro i _ j _ hne ℓ rfl
    refine ⟨(by rintro (⟨j', f, e⟩ | ⟨n, e⟩) <;> cases e), ?_⟩
    intro e
    cases e
    exact hne rfl
  · intro i hi x x' _ hf
    obtain ⟨hil, rfl⟩ := set_ok hf
    have hi' := List.mem_range.1 hi
    have hg : w.groups[i]? = some w.groups[i] := List.getElem?_eq_getElem hi'
    have hh := hget i hi' (by omega)
    simp only [List.get_eq_getElem] at hh
    have e1 : (l[i]?).getD [] = l[i]'(by omega) := by rw [List.getElem?_eq_getElem (by omega)]; rfl
    rw [headGroupP, e1]
    refine Does.bind (Does.load (ℓ := Loc.group i) (m := memOf { w with heads := x }) hg (Or.inl (Or.inr ⟨i, rfl⟩))) ?_
    refine Does.bind (tops_does (w := { w with heads := x }) _ _ (fun j _ => Or.inl (Or.inl ⟨j, _, rfl⟩)) hh) ?_
    exact does_heads (w := { w with heads := x }) hil rfl

/-! ## `NestSubhalos` after `LocalizeNestedIds` -/

theorem nest_completes (hbad : ∀ a b, bad a b → Races a b) {w : World K D} {F : Forest Nat} (hF : IdxForest w.subs F)
    (hdis : ∀ a b, a ≠ b → ∀ x, memberOf w.groups a x → ¬ memberOf w.groups b x) (hnd : w.field.Nodup)
    (hh : w.isHead.length = w.subs.length) (hl : w.heads.length = w.groups.length) {fuel : Nat} {order : List Nat}
    (ho : order.Perm (List.range w.subs.length)) {out : List (Sub K D)} {heads : List (List Nat)}
    (hrun : levelUpDetached fuel order w.groups w.field w.subs = .ok out) (hrun' : headGroups out w.groups = .ok heads) :
    ∃ w' : World K D, w'.subs = out ∧ w'.groups = w.groups ∧ w'.heads = heads ∧ w'.field = w.field ∧
      Completes bad (nestPhases fuel w.subs.length w.groups.length w.field.length) (memOf w) (memOf w') := by
  rw [levelUpDetached] at hrun
  obtain ⟨st1, h1, hrun⟩ := bind_eq_ok hrun
  obtain ⟨st2, h2, h3⟩ := bind_eq_ok hrun
  obtain ⟨l, c1, hlg⟩ := isHead_completes (bad := bad) hbad (w := w) hh
  have c2 := centralRank_completes (bad := bad) (w := { w with isHead := l }) hbad hdis h1
  have c3 := fieldRank_completes (bad := bad) (w := { w with isHead := l, subs := st1 }) hbad hnd h2
  have r1 : RanksOnly w.subs st1 := by
    rw [rankZero_fold] at h1
    exact fold_nested (fun _ _ _ => rank_nested) _ _ _ h1
  have r2 : RanksOnly st1 st2 := by
    rw [rankZero_fold] at h2
    exact fold_nested (fun _ _ _ => rank_nested) _ _ _ h2
  have hr : RanksOnly w.subs st2 := r2.trans r1
  have hlen : st2.length = w.subs.length := by have := congrArg List.length hr; simpa using this
  obtain ⟨c4, hlen4⟩ := levelUp_completes (bad := bad) (w := { w with isHead := l, subs := st2 }) hbad hF hr hlg (by simp only; rw [hlen]; exact ho) h3
  have c5 := headGroups_completes (bad := bad) (w := { w with isHead := l, subs := out }) hbad hl hrun'
  simp only at c4
  rw [hlen] at c4
  exact ⟨{ w with isHead := l, subs := out, heads := heads }, rfl, rfl, rfl, rfl,
    completes_cons c1 (completes_cons c2 (completes_cons c3 (completes_cons c4 c5)))⟩

end HBT.Threads
