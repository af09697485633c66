import Verif.Spec.Spmd
import Verif.Model.Outcome
set_option linter.unusedSectionVars false
/-!
# Confluence of the message passing semantics
-/
namespace HBT.Spmd
variable {P : Nat} {α β : Type} {bf : Msg → Prop}

theorem State.ext' {s t : State P α} (h1 : s.progs = t.progs) (h2 : s.chan = t.chan) (h3 : s.ctx = t.ctx) : s = t := by
  cases s; cases t; simp_all

/-- A process that is done or crashed takes part in no step, and a step leaves every other process where it is. -/
theorem Step.moves {s s' : State P α} (h : Step bf s s') : ∃ r, (∀ a, s.progs r ≠ .ret a) := by
  cases h with
  | coll C κ x k y hne hnd hs hy hs' hrest hchan hctx =>
    obtain ⟨r, hr⟩ := List.exists_mem_of_ne_nil _ hne
    exact ⟨r, fun a => by rw [hs r hr]; simp⟩
  | split color k hne hs hs' hchan hctx => exact ⟨⟨0, hne⟩, fun a => by rw [hs]; simp⟩
  | isend r dst tag m k hs hs' hchan hctx => exact ⟨r, fun a => by rw [hs]; simp⟩
  | recv r src tag τ k m rest hs hm hs' hchan hctx => exact ⟨r, fun a => by rw [hs]; simp⟩
  | waitall r k hs hempty hs' hchan hctx => exact ⟨r, fun a => by rw [hs]; simp⟩

theorem Done.no_step {res : Fin P → α} {s : State P α} (h : Done res s) : ¬ ∃ s', Step bf s s' := by
  rintro ⟨s', h'⟩
  obtain ⟨r, hr⟩ := h'.moves
  exact hr _ (h.1 r)

theorem map_inj_mem {γ δ : Type*} {l : List γ} {f g : γ → δ} (h : l.map f = l.map g) : ∀ a ∈ l, f a = g a := by
  simpa using h

/-- A step of a single process `r`: what it needs of the state and what it does to it. -/
inductive Local (bf : Msg → Prop) (r : Fin P) (s : State P α) : Prog P α → (Fin P → Fin P → Nat → List Msg) → Prop
  | isend (dst : Fin P) (tag : Nat) (m : Msg) (k : Prog P α) (hs : s.progs r = .isend dst tag m k)
      (chan : Fin P → Fin P → Nat → List Msg)
      (hchan : ∀ a b t, chan a b t = if a = r ∧ b = dst ∧ t = tag then s.chan a b t ++ [m] else s.chan a b t) :
      Local bf r s k chan
  | recv (src : Fin P) (tag : Nat) (τ : Type) (k : List τ → Prog P α) (m : List τ) (rest : List Msg)
      (hs : s.progs r = .recv src tag τ k) (hm : s.chan src r tag = ⟨τ, m⟩ :: rest)
      (chan : Fin P → Fin P → Nat → List Msg)
      (hchan : ∀ a b t, chan a b t = if a = src ∧ b = r ∧ t = tag then rest else s.chan a b t) : Local bf r s (k m) chan
  | waitall (k : Prog P α) (hs : s.progs r = .waitall k) (hempty : ∀ dst tag, ∀ m ∈ s.chan r dst tag, bf m) : Local bf r s k s.chan

theorem Local.step {r : Fin P} {s : State P α} {k : Prog P α} {chan} (h : Local bf r s k chan) :
    Step bf s ⟨Function.update s.progs r k, chan, s.ctx⟩ := by
  cases h with
  | isend dst tag m k hs chan hchan => exact .isend r dst tag m k hs rfl hchan rfl
  | recv src tag τ k m rest hs hm chan hchan => exact .recv r src tag τ k m rest hs hm rfl hchan rfl
  | waitall k hs hempty => exact .waitall r k hs hempty rfl rfl rfl

/-- The steps are the collective calls, the splits and the steps of single processes. -/
theorem Step.local_or {s s' : State P α} (h : Step bf s s') :
    (∃ r k chan, Local bf r s k chan ∧ s' = ⟨Function.update s.progs r k, chan, s.ctx⟩) ∨
    (∃ (C : Comm P) (κ : Kind P) (x : Fin P → κ.In) (k : Fin P → κ.Out → Prog P α) (y : Fin P → κ.Out),
      C.members ≠ [] ∧ C.members.Nodup ∧ (∀ r ∈ C.members, s.progs r = .coll C κ (x r) (k r)) ∧
      κ.sem (C.members.map x) = some (C.members.map y) ∧
      s' = ⟨fun r => if r ∈ C.members then k r (y r) else s.progs r, s.chan, s.ctx⟩) ∨
    (∃ (color : Fin P → Nat) (k : Fin P → Comm P → Prog P α), 0 < P ∧ (∀ r, s.progs r = .split (color r) (k r)) ∧
      s' = ⟨fun r => k r ⟨s.ctx + 1, (List.finRange P).filter (fun q => decide (color q = color r))⟩, s.chan, s.ctx + 1⟩) := by
  cases h with
  | coll C κ x k y hne hnd hs hy hs' hrest hchan hctx =>
    refine .inr (.inl ⟨C, κ, x, k, y, hne, hnd, hs, hy, State.ext' ?_ hchan hctx⟩)
    funext r
    by_cases hr : r ∈ C.members
    · simp [hr, hs' r hr]
    · simp [hr, hrest r hr]
  | split color k hne hs hs' hchan hctx =>
    exact .inr (.inr ⟨color, k, hne, hs, State.ext' (funext hs') hchan hctx⟩)
  | isend r dst tag m k hs hs' hchan hctx =>
    exact .inl ⟨r, k, s'.chan, .isend dst tag m k hs _ hchan, State.ext' hs' rfl hctx⟩
  | recv r src tag τ k m rest hs hm hs' hchan hctx =>
    exact .inl ⟨r, k m, s'.chan, .recv src tag τ k m rest hs hm _ hchan, State.ext' hs' rfl hctx⟩
  | waitall r k hs hempty hs' hchan hctx =>
    exact .inl ⟨r, k, s.chan, .waitall k hs hempty, State.ext' hs' hchan hctx⟩

theorem Local.not_coll {r : Fin P} {s : State P α} {k : Prog P α} {chan} (h : Local bf r s k chan) (C : Comm P) (κ : Kind P) (x : κ.In)
    (k' : κ.Out → Prog P α) : s.progs r ≠ .coll C κ x k' := by
  cases h with
  | isend dst tag m k hs chan hchan => rw [hs]; simp
  | recv src tag τ k m rest hs hm chan hchan => rw [hs]; simp
  | waitall k hs hempty => rw [hs]; simp

theorem Local.not_split {r : Fin P} {s : State P α} {k : Prog P α} {chan} (h : Local bf r s k chan) (c : Nat)
    (k' : Comm P → Prog P α) : s.progs r ≠ .split c k' := by
  cases h with
  | isend dst tag m k hs chan hchan => rw [hs]; simp
  | recv src tag τ k m rest hs hm chan hchan => rw [hs]; simp
  | waitall k hs hempty => rw [hs]; simp

/-- A step of a process depends on its own program and on the channels only. -/
theorem Local.congr {r : Fin P} {s t : State P α} {k : Prog P α} {chan} (h : Local bf r s k chan) (hp : t.progs r = s.progs r)
    (hc : t.chan = s.chan) : Local bf r t k chan := by
  cases h with
  | isend dst tag m k hs chan hchan => exact .isend dst tag m k (hp.trans hs) _ (by rw [hc]; exact hchan)
  | recv src tag τ k m rest hs hm chan hchan =>
    exact .recv src tag τ k m rest (hp.trans hs) (by rw [hc]; exact hm) _ (by rw [hc]; exact hchan)
  | waitall k hs hempty => rw [← hc]; exact .waitall k (hp.trans hs) (by rw [hc]; exact hempty)

/-- The same process cannot take two different steps. -/
theorem Local.unique {r : Fin P} {s : State P α} {k k' : Prog P α} {c c'} (h : Local bf r s k c) (h' : Local bf r s k' c') :
    k = k' ∧ c = c' := by
  cases h with
  | isend dst tag m k hs chan hchan =>
    cases h' with
    | isend dst' tag' m' k' hs' chan' hchan' =>
      rw [hs] at hs'
      injection hs' with h1 h2 h3 h4
      subst h1 h2 h3 h4
      exact ⟨rfl, by funext a b t; rw [hchan, hchan']⟩
    | recv src tag' τ k' m' rest hs' hm chan' hchan' => rw [hs] at hs'; simp at hs'
    | waitall k' hs' hempty => rw [hs] at hs'; simp at hs'
  | recv src tag τ k m rest hs hm chan hchan =>
    cases h' with
    | isend dst' tag' m' k' hs' chan' hchan' => rw [hs] at hs'; simp at hs'
    | recv src' tag' τ' k' m' rest' hs' hm' chan' hchan' =>
      rw [hs] at hs'
      injection hs' with h1 h2 h3 h4
      subst h1 h2 h3
      rw [hm] at hm'
      injection hm' with h5 h6
      injection h5 with h7 h8
      subst h8 h4 h6
      exact ⟨rfl, by funext a b t; rw [hchan, hchan']⟩
    | waitall k' hs' hempty => rw [hs] at hs'; simp at hs'
  | waitall k hs hempty =>
    cases h' with
    | isend dst' tag' m' k' hs' chan' hchan' => rw [hs] at hs'; simp at hs'
    | recv src' tag' τ' k' m' rest' hs' hm' chan' hchan' => rw [hs] at hs'; simp at hs'
    | waitall k' hs' hempty =>
      rw [hs] at hs'
      injection hs' with h1
      exact ⟨h1, rfl⟩

/-- Steps of two different processes commute. -/
theorem Local.commute {r q : Fin P} {s : State P α} {k k' : Prog P α} {c c'} (hrq : r ≠ q) (h : Local bf r s k c)
    (h' : Local bf q s k' c') :
    ∃ d, Local bf q ⟨Function.update s.progs r k, c, s.ctx⟩ k' d ∧ Local bf r ⟨Function.update s.progs q k', c', s.ctx⟩ k d := by
  have e1 : ∀ v, (Function.update s.progs r v) q = s.progs q := fun v => Function.update_of_ne (Ne.symm hrq) _ _
  have e2 : ∀ v, (Function.update s.progs q v) r = s.progs r := fun v => Function.update_of_ne hrq _ _
  cases h with
  | isend dst tag m k hs chan hchan =>
    cases h' with
    | isend dst' tag' m' k' hs' chan' hchan' =>
      refine ⟨fun a b t => if a = q ∧ b = dst' ∧ t = tag' then c a b t ++ [m'] else c a b t,
        .isend dst' tag' m' _ ((e1 _).trans hs') _ (fun a b t => rfl), .isend dst tag m _ ((e2 _).trans hs) _ (fun a b t => ?_)⟩
      simp only [hchan, hchan']
      by_cases hr : a = r
      · have : a ≠ q := fun e => hrq (hr.symm.trans e)
        simp [this]
      · simp [hr]
    | recv src' tag' τ' k' m' rest' hs' hm' chan' hchan' =>
      refine ⟨fun a b t => if a = r ∧ b = dst ∧ t = tag then c' a b t ++ [m] else c' a b t,
        .recv src' tag' τ' k' m' (if src' = r ∧ q = dst ∧ tag' = tag then rest' ++ [m] else rest') ((e1 _).trans hs') ?_ _
          (fun a b t => ?_), .isend dst tag m _ ((e2 _).trans hs) _ (fun a b t => rfl)⟩
      · simp only [hchan, hm']
        by_cases hc : src' = r ∧ q = dst ∧ tag' = tag
        · simp [hc]
        · rw [if_neg hc, if_neg hc]
      · simp only [hchan, hchan']
        by_cases hc : a = src' ∧ b = q ∧ t = tag'
        · obtain ⟨rfl, rfl, rfl⟩ := hc
          simp
        · rw [if_neg hc, if_neg hc]
    | waitall k' hs' hempty =>
      refine ⟨c, .waitall _ ((e1 _).trans hs') (fun d t => ?_), .isend dst tag m _ ((e2 _).trans hs) _ hchan⟩
      simp only [hchan]
      rw [if_neg (fun e => hrq e.1.symm)]
      exact hempty d t
  | recv src tag τ k m rest hs hm chan hchan =>
    cases h' with
    | isend dst' tag' m' k' hs' chan' hchan' =>
      refine ⟨fun a b t => if a = q ∧ b = dst' ∧ t = tag' then c a b t ++ [m'] else c a b t,
        .isend dst' tag' m' _ ((e1 _).trans hs') _ (fun a b t => rfl),
        .recv src tag τ k m (if src = q ∧ r = dst' ∧ tag = tag' then rest ++ [m'] else rest) ((e2 _).trans hs) ?_ _
          (fun a b t => ?_)⟩
      · simp only [hchan', hm]
        by_cases hc : src = q ∧ r = dst' ∧ tag = tag'
        · simp [hc]
        · rw [if_neg hc, if_neg hc]
      · simp only [hchan, hchan']
        by_cases hc : a = src ∧ b = r ∧ t = tag
        · obtain ⟨rfl, rfl, rfl⟩ := hc
          simp
        · rw [if_neg hc, if_neg hc]
    | recv src' tag' τ' k' m' rest' hs' hm' chan' hchan' =>
      refine ⟨fun a b t => if a = src' ∧ b = q ∧ t = tag' then rest' else c a b t,
        .recv src' tag' τ' k' m' rest' ((e1 _).trans hs') ?_ _ (fun a b t => rfl),
        .recv src tag τ k m rest ((e2 _).trans hs) ?_ _ (fun a b t => ?_)⟩
      · simp only [hchan, hm']
        rw [if_neg (fun e => hrq e.2.1.symm)]
      · simp only [hchan', hm]
        rw [if_neg (fun e => hrq e.2.1)]
      · simp only [hchan, hchan']
        by_cases hb : b = q
        · have : b ≠ r := fun e => hrq (e.symm.trans hb)
          simp [this]
        · simp [hb]
    | waitall k' hs' hempty =>
      refine ⟨c, .waitall _ ((e1 _).trans hs') (fun d t => ?_), .recv (s := ⟨Function.update s.progs q k', s.chan, s.ctx⟩) src tag τ k m rest
        ((e2 _).trans hs) hm _ hchan⟩
      simp only [hchan]
      split
      · rename_i e
        intro m' hm'
        exact hempty d t m' (by rw [e.1, e.2.1, e.2.2, hm]; exact List.mem_cons_of_mem _ hm')
      · exact hempty d t
  | waitall k hs hempty =>
    cases h' with
    | isend dst' tag' m' k' hs' chan' hchan' =>
      refine ⟨c', .isend dst' tag' m' _ ((e1 _).trans hs') _ hchan', .waitall _ ((e2 _).trans hs) (fun d t => ?_)⟩
      simp only [hchan']
      rw [if_neg (fun e => hrq e.1)]
      exact hempty d t
    | recv src' tag' τ' k' m' rest' hs' hm' chan' hchan' =>
      refine ⟨c', .recv (s := ⟨Function.update s.progs r k, s.chan, s.ctx⟩) src' tag' τ' k' m' rest' ((e1 _).trans hs') hm' _ hchan',
         .waitall _ ((e2 _).trans hs) (fun d t => ?_)⟩
      simp only [hchan']
      split
      · rename_i e
        intro m hm
        exact hempty d t m (by rw [e.1, e.2.1, e.2.2, hm']; exact List.mem_cons_of_mem _ hm)
      · exact hempty d t
    | waitall k' hs' hempty' =>
      exact ⟨s.chan, .waitall _ ((e1 _).trans hs') hempty', .waitall _ ((e2 _).trans hs) hempty⟩

/-- A collective call and the step of a single process commute. -/
theorem coll_local {s : State P α} {C : Comm P} {κ : Kind P} {x : Fin P → κ.In} {k : Fin P → κ.Out → Prog P α} {y : Fin P → κ.Out}
    (hne : C.members ≠ []) (hnd : C.members.Nodup) (hs : ∀ r ∈ C.members, s.progs r = .coll C κ (x r) (k r))
    (hy : κ.sem (C.members.map x) = some (C.members.map y)) {q : Fin P} {k' : Prog P α} {c} (h : Local bf q s k' c) :
    ∃ d, Step bf ⟨fun r => if r ∈ C.members then k r (y r) else s.progs r, s.chan, s.ctx⟩ d ∧
      Step bf ⟨Function.update s.progs q k', c, s.ctx⟩ d := by
  have hq : q ∉ C.members := fun hq => h.not_coll _ _ _ _ (hs q hq)
  refine ⟨⟨Function.update (fun r => if r ∈ C.members then k r (y r) else s.progs r) q k', c, s.ctx⟩,
    (h.congr (t := ⟨fun r => if r ∈ C.members then k r (y r) else s.progs r, s.chan, s.ctx⟩) (by simp [hq]) rfl).step,
    .coll C κ x k y hne hnd (fun r hr => ?_) hy (fun r hr => ?_) (fun r hr => ?_) rfl rfl⟩
  · show Function.update s.progs q k' r = _
    rw [Function.update_of_ne (fun e : r = q => hq (e ▸ hr)), hs r hr]
  · show Function.update (fun r => if r ∈ C.members then k r (y r) else s.progs r) q k' r = _
    rw [Function.update_of_ne (fun e : r = q => hq (e ▸ hr)), if_pos hr]
  · show Function.update (fun r => if r ∈ C.members then k r (y r) else s.progs r) q k' r = Function.update s.progs q k' r
    by_cases e : r = q
    · subst e; simp
    · rw [Function.update_of_ne e, Function.update_of_ne e, if_neg hr]

/-- Two collective calls are the same, or they are of different processes and commute. -/
theorem coll_coll {s : State P α} {C : Comm P} {κ : Kind P} {x : Fin P → κ.In} {k : Fin P → κ.Out → Prog P α} {y : Fin P → κ.Out}
    (hne : C.members ≠ []) (hnd : C.members.Nodup) (hs : ∀ r ∈ C.members, s.progs r = .coll C κ (x r) (k r))
    (hy : κ.sem (C.members.map x) = some (C.members.map y))
    {C' : Comm P} {κ' : Kind P} {x' : Fin P → κ'.In} {k' : Fin P → κ'.Out → Prog P α} {y' : Fin P → κ'.Out}
    (hne' : C'.members ≠ []) (hnd' : C'.members.Nodup) (hs' : ∀ r ∈ C'.members, s.progs r = .coll C' κ' (x' r) (k' r))
    (hy' : κ'.sem (C'.members.map x') = some (C'.members.map y')) :
    (fun r => if r ∈ C.members then k r (y r) else s.progs r) = (fun r => if r ∈ C'.members then k' r (y' r) else s.progs r) ∨
    ∃ d, Step bf ⟨fun r => if r ∈ C.members then k r (y r) else s.progs r, s.chan, s.ctx⟩ d ∧
      Step bf ⟨fun r => if r ∈ C'.members then k' r (y' r) else s.progs r, s.chan, s.ctx⟩ d := by
  by_cases hshare : ∃ r, r ∈ C.members ∧ r ∈ C'.members
  · left
    obtain ⟨r, hr, hr'⟩ := hshare
    have e := (hs r hr).symm.trans (hs' r hr')
    injection e with e1 e2 e3 e4
    subst e1 e2
    have both : ∀ q ∈ C.members, x q = x' q ∧ k q = k' q := by
      intro q hq
      have e := (hs q hq).symm.trans (hs' q hq)
      injection e with _ _ e3 e4
      exact ⟨e3, e4⟩
    have hx : C.members.map x = C.members.map x' := List.map_congr_left (fun q hq => (both q hq).1)
    rw [hx, hy'] at hy
    injection hy with hy
    have hyy := map_inj_mem hy
    funext q
    by_cases hq : q ∈ C.members
    · simp only [hq, if_true]
      rw [(both q hq).2, hyy q hq]
    · simp [hq]
  · right
    have dis : ∀ r ∈ C.members, r ∉ C'.members := fun r hr hr' => hshare ⟨r, hr, hr'⟩
    have dis' : ∀ r ∈ C'.members, r ∉ C.members := fun r hr hr' => hshare ⟨r, hr', hr⟩
    refine ⟨⟨fun r => if r ∈ C.members then k r (y r) else if r ∈ C'.members then k' r (y' r) else s.progs r, s.chan, s.ctx⟩,
      .coll C' κ' x' k' y' hne' hnd' (fun r hr => ?_) hy' (fun r hr => ?_) (fun r hr => ?_) rfl rfl,
      .coll C κ x k y hne hnd (fun r hr => ?_) hy (fun r hr => ?_) (fun r hr => ?_) rfl rfl⟩
    · simp [dis' r hr, hs' r hr]
    · simp [dis' r hr, hr]
    · simp [hr]
    · simp [dis r hr, hs r hr]
    · simp [hr]
    · simp [hr]

/-- Two steps from the same state either lead to the same state or can be done one after the other in either order. -/
theorem diamond {s a b : State P α} (ha : Step bf s a) (hb : Step bf s b) : a = b ∨ ∃ c, Step bf a c ∧ Step bf b c := by
  rcases ha.local_or with ⟨r, k, c, hl, rfl⟩ | ⟨C, κ, x, k, y, hne, hnd, hs, hy, rfl⟩ | ⟨color, k, hP, hs, rfl⟩
  · rcases hb.local_or with ⟨r', k', c', hl', rfl⟩ | ⟨C', κ', x', k', y', hne', hnd', hs', hy', rfl⟩ | ⟨color', k', hP', hs', rfl⟩
    · by_cases e : r = r'
      · subst e
        obtain ⟨rfl, rfl⟩ := hl.unique hl'
        exact .inl rfl
      · right
        obtain ⟨d, h1, h2⟩ := hl.commute e hl'
        refine ⟨_, h1.step, ?_⟩
        have := h2.step
        simp only at this ⊢
        rwa [Function.update_comm e]
    · right
      obtain ⟨d, h1, h2⟩ := coll_local hne' hnd' hs' hy' hl
      exact ⟨d, h2, h1⟩
    · exact absurd (hs' r) (hl.not_split _ _)
  · rcases hb.local_or with ⟨r', k', c', hl', rfl⟩ | ⟨C', κ', x', k', y', hne', hnd', hs', hy', rfl⟩ | ⟨color', k', hP', hs', rfl⟩
    · right
      exact coll_local hne hnd hs hy hl'
    · rcases coll_coll hne hnd hs hy hne' hnd' hs' hy' with h | h
      · left; rw [h]
      · exact .inr h
    · obtain ⟨r, hr⟩ := List.exists_mem_of_ne_nil _ hne
      have := (hs r hr).symm.trans (hs' r)
      simp at this
  · rcases hb.local_or with ⟨r', k', c', hl', rfl⟩ | ⟨C', κ', x', k', y', hne', hnd', hs', hy', rfl⟩ | ⟨color', k', hP', hs', rfl⟩
    · exact absurd (hs r') (hl'.not_split _ _)
    · obtain ⟨r, hr⟩ := List.exists_mem_of_ne_nil _ hne'
      have := (hs' r hr).symm.trans (hs r)
      simp at this
    · left
      have both : ∀ r, color r = color' r ∧ k r = k' r := by
        intro r
        have e := (hs r).symm.trans (hs' r)
        injection e with e1 e2
        exact ⟨e1, e2⟩
      have h1 : color = color' := funext fun r => (both r).1
      have h2 : k = k' := funext fun r => (both r).2
      subst h1 h2
      rfl

/-- Executions with their number of steps. -/
inductive StepN (bf : Msg → Prop) : Nat → State P α → State P α → Prop
  | zero (s : State P α) : StepN bf 0 s s
  | succ {n : Nat} {s t u : State P α} (h : Step bf s t) (h' : StepN bf n t u) : StepN bf (n + 1) s u

theorem Steps.toN {s t : State P α} (h : Steps bf s t) : ∃ n, StepN bf n s t := by
  induction h using Relation.ReflTransGen.head_induction_on with
  | refl => exact ⟨0, .zero _⟩
  | head h _ ih =>
    obtain ⟨n, hn⟩ := ih
    exact ⟨n + 1, .succ h hn⟩

/-- When some execution ends, every other one gets closer to the same end with each step. -/
theorem StepN.other {n : Nat} {s f : State P α} (h : StepN bf n s f) (hf : ¬ ∃ s', Step bf f s') {t : State P α} (ht : Step bf s t) :
    ∃ m, n = m + 1 ∧ StepN bf m t f := by
  induction h generalizing t with
  | zero s => exact absurd ⟨t, ht⟩ hf
  | succ h1 h2 ih =>
    rcases diamond h1 ht with rfl | ⟨c, h3, h4⟩
    · exact ⟨_, rfl, h2⟩
    · obtain ⟨m, rfl, hm⟩ := ih hf h3
      exact ⟨m + 1, rfl, .succ h4 hm⟩

theorem StepN.acc {n : Nat} {s f : State P α} (h : StepN bf n s f) (hf : ¬ ∃ s', Step bf f s') : Acc (fun b a => Step bf a b) s := by
  induction n generalizing s with
  | zero =>
    constructor
    intro t ht
    obtain ⟨m, hm, _⟩ := h.other hf ht
    omega
  | succ n ih =>
    constructor
    intro t ht
    obtain ⟨m, hm, hm'⟩ := h.other hf ht
    obtain rfl : n = m := by omega
    exact ih hm'

theorem StepN.all {n : Nat} {s f t : State P α} (h : StepN bf n s f) (hf : ¬ ∃ s', Step bf f s') (ht : Steps bf s t) :
    ∃ m, StepN bf m t f := by
  induction ht with
  | refl => exact ⟨n, h⟩
  | tail _ h2 ih =>
    obtain ⟨m, hm⟩ := ih
    obtain ⟨m', _, hm'⟩ := hm.other hf h2
    exact ⟨m', hm'⟩

/-- If one execution completes, all do, with the same results. -/
theorem completes_of_one {p : Fin P → Prog P α} {res : Fin P → α}
    (h : ∀ bf ctx, ∃ s, Steps bf (start ctx p) s ∧ Done res s) : Completes p res := by
  intro bf ctx
  obtain ⟨f, hf, hd⟩ := h bf ctx
  obtain ⟨n, hn⟩ := hf.toN
  refine ⟨hn.acc hd.no_step, fun s hs hstop => ?_⟩
  obtain ⟨m, hm⟩ := hn.all hd.no_step hs
  cases hm with
  | zero => exact hd
  | succ h1 _ => exact absurd ⟨_, h1⟩ hstop

end HBT.Spmd
