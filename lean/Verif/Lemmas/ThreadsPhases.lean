import Verif.Lemmas.ThreadsHosts
import Verif.Lemmas.MergeAll
/-!
# Helper lemmas: the parallel loops of one snapshot under every schedule
-/
namespace HBT.Threads
open HBT HBT.Model HBT.Spec HBT.Spec.Forest
variable {K D E S Q α : Type} {bad : Access Loc (Loc.Val K D) → Access Loc (Loc.Val K D) → Prop}

/-! ## Loops over lists -/

/-- One after the other. -/
def foldOk {σ γ : Type} (f : γ → σ → Outcome σ) : List γ → σ → Outcome σ
  | [], st => .ok st
  | x :: xs, st => do
    let st ← f x st
    foldOk f xs st

theorem runAll_range' {σ γ : Type} (f : γ → σ → Outcome σ) : ∀ (xs pre : List γ) (st : σ),
    runAll (fun i st => do let x ← Outcome.get (pre ++ xs) i; f x st) (List.range' pre.length xs.length) st = foldOk f xs st := by
  intro xs
  induction xs with
  | nil => intro pre st; rfl
  | cons x xs ih =>
    intro pre st
    have e : Outcome.get (pre ++ x :: xs) pre.length = .ok x := get_some (by simp)
    rw [List.length_cons, List.range'_succ, runAll, foldOk]
    simp only [e, Outcome.bind_ok]
    cases h : f x st with
    | ok st1 =>
      rw [Outcome.bind_ok, Outcome.bind_ok]
      have := ih (pre ++ [x]) st1
      simpa using this
    | ub => rfl
    | abort => rfl
    | diverge => rfl

theorem runAll_range {σ γ : Type} (f : γ → σ → Outcome σ) (xs : List γ) (st : σ) :
    runAll (fun i st => do let x ← Outcome.get xs i; f x st) (List.range xs.length) st = foldOk f xs st := by
  have := runAll_range' f xs [] st
  rwa [List.nil_append, List.length_nil, ← List.range_eq_range'] at this

theorem runAll_congr {σ : Type} {f g : Nat → σ → Outcome σ} {is : List Nat} (h : ∀ i ∈ is, ∀ st, f i st = g i st) : ∀ st, runAll f is st = runAll g is st := by
  induction is with
  | nil => intro st; rfl
  | cons i is ih =>
    intro st
    rw [runAll, runAll, h i List.mem_cons_self]
    cases g i st with
    | ok st1 => exact ih (fun j hj => h j (List.mem_cons_of_mem _ hj)) st1
    | ub => rfl
    | abort => rfl
    | diverge => rfl

/-- A function of one subhalo, in place (the model of `applyP`). -/
def applyAt (g : Sub K D → Outcome (Sub K D)) (i : Nat) (st : List (Sub K D)) : Outcome (List (Sub K D)) := do
  let s ← Outcome.get st i
  let s' ← g s
  Outcome.set st i s'

theorem applyAt_range' {g : Sub K D → Outcome (Sub K D)} : ∀ (l l' pre : List (Sub K D)), List.Forall₂ (fun s s' => g s = .ok s') l l' →
    runAll (applyAt g) (List.range' pre.length l.length) (pre ++ l) = .ok (pre ++ l') := by
  intro l l' pre h
  induction h generalizing pre with
  | nil => rfl
  | @cons s s' l l' hs h ih =>
    rw [List.length_cons, List.range'_succ, runAll, applyAt]
    have e : (pre ++ s :: l)[pre.length]? = some s := by simp
    rw [get_some e, Outcome.bind_ok, hs, Outcome.bind_ok, set_some e, Outcome.bind_ok]
    have := ih (pre ++ [s'])
    simpa using this

theorem applyAt_range {g : Sub K D → Outcome (Sub K D)} {l l' : List (Sub K D)} (h : List.Forall₂ (fun s s' => g s = .ok s') l l') :
    runAll (applyAt g) (List.range l.length) l = .ok l' := by
  have := applyAt_range' l l' [] h
  rwa [List.nil_append, List.nil_append, List.length_nil, ← List.range_eq_range'] at this

theorem applyAt_sim {A : Access Loc (Loc.Val K D) → Prop} {w : World K D} {g : Sub K D → Outcome (Sub K D)} {i : Nat} (hown : Owns A i) {st st' : List (Sub K D)}
    (h : applyAt g i st = .ok st') : Sim A w (applyP g i) st () st' := by
  rw [applyAt] at h
  obtain ⟨s, h1, h2⟩ := bind_eq_ok h
  obtain ⟨s', h3, h4⟩ := bind_eq_ok h2
  obtain ⟨hi, rfl⟩ := set_ok h4
  exact sim_apply (get_ok h1) h3 hown

/-- A loop over single subhaloes. -/
theorem each_loop (hbad : ∀ a b, bad a b → Races a b) (w : World K D) (f : Nat → List (Sub K D) → Outcome (List (Sub K D))) (p : Nat → TProg K D Unit)
    {is js : List Nat} {st st' : List (Sub K D)} (hnd : is.Nodup) (hperm : is.Perm js)
    (hsim : ∀ i ∈ is, ∀ st st', f i st = .ok st' → Sim (ownFoot (· = i)) w (p i) st () st') (hrun : runAll f is st = .ok st') :
    Completes bad [js.map p] (memOf (w.withSubs st)) (memOf (w.withSubs st')) ∧ st'.length = st.length := by
  have key := subs_loop (bad := bad) hbad w f p (fun i x => x = i) (fun _ _ => True) hnd hperm ?_ ?_ (fun _ _ _ _ _ => trivial) (fun _ _ => trivial) hrun
  · exact ⟨key.1, key.2.1⟩
  · rintro i _ j hne x rfl hj
    exact hne hj
  · intro i hi st st' _ h
    exact ⟨hsim i hi st st' h, trivial⟩

/-! ## The layout -/

variable {subs : List (Sub K D)} {nold : Nat} {groups heads : List (List Nat)} {field : List Nat}

theorem shows_closed {subs : List (Sub K D)} {F : Forest Nat} (h : F.Shows (idxKids subs)) :
    ∀ i s, i ∈ F.nodes → subs[i]? = some s → ∀ k ∈ s.nested, k.toNat ∈ F.nodes := by
  induction F with
  | nil => intro i s hi; simp at hi
  | cons a k r ihk ihr =>
    obtain ⟨⟨t, ht, hn⟩, hk, hr⟩ := h
    intro i s hi hs c hc
    rw [nodes_cons, List.mem_cons, List.mem_append] at hi ⊢
    rcases hi with rfl | hi | hi
    · rw [ht] at hs
      cases hs
      rw [hn] at hc
      obtain ⟨x, hx, rfl⟩ := List.mem_map.1 hc
      exact Or.inr (Or.inl (roots_subset k (by simpa using hx)))
    · exact Or.inr (Or.inl (ihk hk i s hi hs c hc))
    · exact Or.inr (Or.inr (ihr hr i s hi hs c hc))

theorem layout_closed (h : Layout subs nold groups heads field) (n : Nat) : Closed (memberOf groups n) subs := by
  rintro i s ⟨g, hg, hi⟩ hs k hk _
  refine ⟨g, hg, ?_⟩
  obtain ⟨hs', _, hf⟩ := forall₂_get h.forests n g hg
  cases hf with
  | empty => cases hi
  | tops c t kf rest h1 h2 =>
    exact h2.mem_iff.1 (shows_closed h1 i s (h2.mem_iff.2 hi) hs k hk)

theorem layout_headsIn (h : Layout subs nold groups heads field) : HeadsIn groups heads := by
  intro n hs hh x hx
  rw [h.heads_, List.getElem?_map] at hh
  obtain ⟨g, hg, rfl⟩ := Option.map_eq_some_iff.1 hh
  exact ⟨g, hg, (List.mem_filter.1 hx).1⟩

theorem layout_apart (h : Layout subs nold groups heads field) {a b : Nat} (hab : a ≠ b) {x : Nat} (hx : memberOf groups a x) : ¬ memberOf groups b x := by
  obtain ⟨g, hg, hx⟩ := hx
  rintro ⟨g', hg', hx'⟩
  exact h.disjoint hg hg' hab hx hx'

/-! ## Masking and unbinding -/

theorem mask_completes (hbad : ∀ a b, bad a b → Races a b) {w : World K D} (h : Layout w.subs nold w.groups w.heads w.field) {fuel : Nat} {order : List Nat}
    (ho : order.Perm (List.range w.groups.length)) {out : List (Sub K D)} (hrun : maskSubhalos fuel order w.groups w.heads w.subs = .ok out) :
    Completes bad (maskPhases fuel w.groups.length) (memOf w) (memOf (w.withSubs out)) := by
  have := subs_loop hbad w (maskHost fuel w.groups w.heads) (maskHostP fuel) (memberOf w.groups) (fun n => Closed (memberOf w.groups n))
    (ho.nodup_iff.2 List.nodup_range) ho (fun i _ j hne x => layout_apart h hne)
    (fun i _ st st' hp hf => maskHost_sim (layout_headsIn h) hp hf) (fun j st st' hp he => hp.local he) (fun i _ => layout_closed h i) hrun
  exact this.1

variable [LT E] [DecidableLT E] [Zero E] [MassSum K] {cfg : UnbindConfig} {env : Nat → UnbindEnv K D E} {snap : Int}

theorem refine_completes (hbad : ∀ a b, bad a b → Races a b) {w : World K D} (h : Layout w.subs nold w.groups w.heads w.field) {fuel nnew : Nat}
    (hn : w.subs.length = nold + nnew) {order lone : List Nat} (ho : order.Perm (List.range w.groups.length))
    (hl : lone.Perm (w.field ++ (List.range nnew).map (nold + ·))) {out : List (Sub K D)}
    (hrun : refineParticles cfg env snap fuel order lone w.groups w.heads w.subs = .ok out) :
    Completes bad (refinePhases cfg env snap fuel w.groups.length w.field.length nold nnew) (memOf w) (memOf (w.withSubs out)) := by
  rw [refineParticles] at hrun
  obtain ⟨st1, h1, hrun⟩ := bind_eq_ok hrun
  obtain ⟨st2, h2, hrun⟩ := bind_eq_ok hrun
  cases hrun
  obtain ⟨c1, l1, _⟩ := subs_loop hbad w (refineHost cfg env snap fuel w.groups w.heads) (refineHostP cfg env snap fuel) (memberOf w.groups)
    (fun n => Closed (memberOf w.groups n)) (ho.nodup_iff.2 List.nodup_range) ho (fun i _ j hne x => layout_apart h hne)
    (fun i _ st st' hp hf => refineHost_sim (layout_headsIn h) hp hf) (fun j st st' hp he => hp.local he) (fun i _ => layout_closed h i) h1
  have hfn : (w.field ++ (List.range nnew).map (nold + ·)).Nodup := by
    have h0 := h.all.nodup_iff.2 List.nodup_range
    rw [List.nodup_append] at h0 ⊢
    refine ⟨h0.2.1, List.nodup_range.map (fun a b e => by simpa using e), ?_⟩
    rintro a ha b hb rfl
    have : a < nold := List.mem_range.1 (h.all.mem_iff.1 (List.mem_append_right _ ha))
    obtain ⟨k, _, rfl⟩ := List.mem_map.1 hb
    omega
  have hlt : ∀ a ∈ w.field, a < nold := fun a ha => List.mem_range.1 (h.all.mem_iff.1 (List.mem_append_right _ ha))
  obtain ⟨c2, l2⟩ := each_loop (bad := bad) hbad w (unbindAt cfg env snap)
    (fun i => if i < nold then unbindFieldP cfg env snap (w.field.idxOf i) else applyP (unbindFull cfg (env i) snap) i)
    (hl.nodup_iff.2 hfn) hl (fun i hi st st' hf => by
      have hi' := hl.mem_iff.1 hi
      have hs := unbindAt_sim (A := ownFoot (· = i)) (w := w) (ownFoot_owns rfl) hf
      split_ifs with hlt'
      · have hif : i ∈ w.field := by
          rcases List.mem_append.1 hi' with hi' | hi'
          · exact hi'
          · obtain ⟨k, _, rfl⟩ := List.mem_map.1 hi'
            omega
        rw [unbindFieldP]
        refine Sim.bind (Sim.load (v := w.field) rfl (own_read (by simp))) ?_
        rw [List.getElem?_eq_getElem (List.idxOf_lt_length_of_mem hif), List.getElem_idxOf]
        exact hs
      · exact hs) h2
  have e2 : (w.field ++ (List.range nnew).map (nold + ·)).map
      (fun i => if i < nold then unbindFieldP cfg env snap (w.field.idxOf i) else applyP (unbindFull cfg (env i) snap) i) =
      (List.range w.field.length).map (unbindFieldP cfg env snap) ++
      (List.range nnew).map (fun k => applyP (unbindFull cfg (env (nold + k)) snap) (nold + k)) := by
    rw [List.map_append, List.map_map]
    congr 1
    · apply List.ext_getElem (by simp)
      intro j h1 h2
      simp only [List.length_map] at h1
      simp only [List.getElem_map, List.getElem_range]
      rw [if_pos (hlt _ (List.getElem_mem _)), List.Nodup.idxOf_getElem (List.nodup_append.1 hfn).1]
    · apply List.map_congr_left
      intro k _
      simp
  rw [e2] at c2
  have hlen : st2.length = nold + nnew := by rw [l2, l1, hn]
  obtain ⟨c3, -⟩ := each_loop (bad := bad) hbad w (applyAt (fun s => .ok (truncateSource cfg s))) (truncP cfg) (is := List.range st2.length) (js := List.range st2.length)
    List.nodup_range (List.Perm.refl _) (fun i _ st st' hf => applyAt_sim (A := ownFoot (· = i)) (ownFoot_owns (T := (· = i)) rfl) hf)
    (applyAt_range (l' := st2.map (truncateSource cfg)) (by
      rw [List.forall₂_map_right_iff, List.forall₂_same]
      exact fun _ _ => rfl))
  rw [hlen] at c3
  exact completes_cons c1 (completes_cons c2 c3)

end HBT.Threads
