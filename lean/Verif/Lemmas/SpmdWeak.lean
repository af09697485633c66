import Verif.Spec.SpmdWeak
import Verif.Lemmas.SpmdSend
import Mathlib.Tactic.Tauto
import Mathlib.Tactic.SplitIfs
set_option linter.unusedSectionVars false
/-!
# Collective calls by messages do the same as collective calls
-/
namespace HBT.Spmd
variable {P : Nat} {α β τ : Type} {bf : Msg → Prop}

theorem mapM_range' {γ : Type} (got : Nat → Option γ) (xs : List γ) : ∀ a, (∀ j, (hj : j < xs.length) → got (a + j) = some xs[j]) →
    (List.range' a xs.length).mapM got = some xs := by
  induction xs with
  | nil => intro a _; rfl
  | cons x xs ih =>
    intro a h
    have h0 := h 0 (by simp)
    have ih := ih (a + 1) (fun j hj => by
      have := h (j + 1) (by simpa using hj)
      rw [show a + 1 + j = a + (j + 1) by omega]
      simpa using this)
    rw [List.length_cons, List.range'_succ, List.mapM_cons]
    simp only [Nat.add_zero] at h0
    rw [h0, ih]
    rfl

theorem mapM_range {γ : Type} (got : Nat → Option γ) (xs : List γ) (n : Nat) (hn : n ≤ xs.length)
    (h : ∀ j, (hj : j < xs.length) → j < n → got j = some xs[j]) : (List.range n).mapM got = some (xs.take n) := by
  have := mapM_range' got (xs.take n) 0 (fun j hj => by
    rw [List.length_take] at hj
    rw [Nat.zero_add, h j (by omega) (by omega), List.getElem_take])
  rw [List.length_take, Nat.min_eq_left hn] at this
  rwa [List.range_eq_range']

/-- What a member has for another is what the other expects. -/
theorem sem_fits {κ : Kind P} {xs : List κ.In} {ys : List κ.Out} (h : κ.sem xs = some ys) (i j : Nat) (hi : i < xs.length) (hj : j < xs.length) :
    κ.gives j xs[j] i = κ.takes i xs[i] j := by
  cases κ with
  | barrier => rfl
  | bcast τ root count => rfl
  | reduce τ op root => rfl
  | allreduce τ op count => rfl
  | scan τ op => rfl
  | allgather τ => rfl
  | alltoall τ => rfl
  | alltoallv τ =>
    change semAlltoallv xs = some ys at h
    unfold semAlltoallv at h
    split at h
    · rename_i hl
      split at h
      · rename_i hc
        have := hc ⟨i, hl ▸ hi⟩ ⟨j, hl ▸ hj⟩
        simp only [Kind.gives, Kind.takes]
        rw [dif_pos (hl ▸ hi), dif_pos (hl ▸ hj)]
        exact this.symm
      · cases h
    · cases h
  | scatterv τ root =>
    change semScatterv root xs = some ys at h
    unfold semScatterv at h
    split at h
    · rename_i hl
      split at h
      · rename_i hc
        have := hc ⟨i, hl ▸ hi⟩
        simp only [Kind.gives, Kind.takes]
        by_cases hr : j = root.val
        · subst hr
          rw [if_pos rfl, if_pos rfl, dif_pos (hl ▸ hi)]
          exact this.symm
        · rw [if_neg hr, if_neg hr]
      · cases h
    · cases h

theorem resFold_ok (op : τ → τ → τ) (xs : List τ) (got : Nat → Option τ) (n : Nat) (hn : n ≤ xs.length)
    (h : ∀ j, (hj : j < xs.length) → j < n → got j = some xs[j]) (a : τ) (l : List τ) (e : xs.take n = a :: l) :
    resFold op n got = some (l.foldl op a) := by
  unfold resFold
  rw [mapM_range got xs n hn h, e]

theorem resBcast_ok {root count : Nat} {xs ys : List (List τ)} (h : semBcast root count xs = some ys) (i : Nat) (hi : i < xs.length)
    (got : Nat → Option (List τ)) (hneed : ∀ j, (hj : j < xs.length) → 0 < (if j = root then count else 0) → got j = some xs[j]) :
    resBcast root count xs[i] got = ys[i]? := by
  unfold semBcast at h
  split at h
  · rename_i buf hb
    split at h
    · rename_i hc
      injection h with h
      obtain ⟨hr, hb⟩ := List.getElem?_eq_some_iff.1 hb
      unfold resBcast
      have hbl : buf.length = count := hc _ (hb ▸ List.getElem_mem _)
      rw [if_pos (hc _ (List.getElem_mem _)), ← h]
      rw [List.getElem?_map, List.getElem?_eq_getElem hi]
      by_cases h0 : count = 0
      · rw [if_pos h0, List.eq_nil_of_length_eq_zero (hbl.trans h0)]; rfl
      · rw [if_neg h0, hneed root hr (by simp; omega), hb]
        simp [hbl]
    · cases h
  · cases h

theorem resReduce_ok {op : τ → τ → τ} {root : Nat} {xs : List τ} {ys : List (Option τ)} (h : semReduce op root xs = some ys) (i : Nat)
    (hi : i < xs.length) (got : Nat → Option τ) (hneed : ∀ j, (hj : j < xs.length) → 0 < (if i = root then 1 else 0) → got j = some xs[j]) :
    (if i = root then (resFold op xs.length got).map some else some none) = ys[i]? := by
  unfold semReduce at h
  split at h
  · cases h
  · rename_i a l
    split at h
    · rename_i hr
      injection h with h
      rw [← h, List.getElem?_map, List.getElem?_range hi]
      by_cases hir : i = root
      · rw [if_pos hir, resFold_ok op (a :: l) got (a :: l).length (Nat.le_refl _) (fun j hj _ => hneed j hj (by simp [hir])) a l (by simp)]
        simp [hir]
      · simp [hir]
    · cases h

theorem resAllreduce_ok {op : τ → τ → τ} {count : Nat} {xs ys : List (List τ)} (h : semAllreduce op count xs = some ys) (i : Nat) (hi : i < xs.length)
    (got : Nat → Option (List τ)) (hneed : ∀ j, (hj : j < xs.length) → 0 < count → got j = some xs[j]) :
    resAllreduce op count xs.length xs[i] got = ys[i]? := by
  unfold semAllreduce at h
  split at h
  · cases h
  · rename_i a l
    split at h
    · rename_i hc
      injection h with h
      unfold resAllreduce
      rw [if_pos (hc _ (List.getElem_mem _)), ← h, List.getElem?_map, List.getElem?_eq_getElem hi]
      by_cases h0 : count = 0
      · rw [if_pos h0]
        have ha : a = [] := List.eq_nil_of_length_eq_zero ((hc a (by simp)).trans h0)
        have : ∀ l : List (List τ), l.foldl (List.zipWith op) [] = [] := by
          intro l
          induction l with
          | nil => rfl
          | cons b l ih => simpa using ih
        rw [ha, this]
        rfl
      · rw [if_neg h0, mapM_range got (a :: l) (a :: l).length (Nat.le_refl _) (fun j hj _ => hneed j hj (by omega)), List.take_length]
        simp only
        rw [if_pos hc]
        rfl
    · cases h

theorem resScan_ok {op : τ → τ → τ} {xs ys : List τ} (h : semScan op xs = some ys) (i : Nat) (hi : i < xs.length)
    (got : Nat → Option τ) (hneed : ∀ j, (hj : j < xs.length) → 0 < (if j ≤ i then 1 else 0) → got j = some xs[j]) :
    resFold op (i + 1) got = ys[i]? := by
  unfold semScan at h
  split at h
  · cases h
  · rename_i a l
    injection h with h
    rw [resFold_ok op (a :: l) got (i + 1) hi (fun j hj hji => hneed j hj (by rw [if_pos (by omega)]; omega)) a (l.take i) (by simp), ← h]
    have hi' : i < (l.scanl op a).length := by simpa using hi
    rw [List.getElem?_eq_getElem hi', scanl_getElem]

theorem resAlltoall_ok {xs ys : List (Fin P → τ)} (h : semAlltoall xs = some ys) (i : Nat) (hi : i < xs.length)
    (got : Nat → Option (Fin P → τ)) (hneed : ∀ j, (hj : j < xs.length) → got j = some xs[j]) : resAlltoall i got = ys[i]? := by
  unfold semAlltoall at h
  split at h
  · rename_i hl
    injection h with h
    have hs : ∀ s : Fin P, got s.val = some (xs[s.val]'(by have := s.isLt; omega)) := fun s => hneed s.val _
    have hiP : i < P := hl ▸ hi
    unfold resAlltoall
    rw [dif_pos hiP, dif_pos (fun s => by rw [hs s]; rfl), ← h]
    rw [List.getElem?_eq_getElem (by simpa using hiP), List.getElem_ofFn]
    congr 1
    funext s
    have get : ∀ (o : Option (Fin P → τ)) (ho : o.isSome) (v : Fin P → τ), o = some v → o.get ho = v := by rintro _ _ _ rfl; rfl
    exact congrFun (get _ _ _ (hs s)) _
  · cases h

theorem resAlltoallv_ok {xs : List ((Fin P → List τ) × (Fin P → Nat))} {ys : List (Fin P → List τ)} (h : semAlltoallv xs = some ys) (i : Nat)
    (hi : i < xs.length) (got : Nat → Option ((Fin P → List τ) × (Fin P → Nat)))
    (hgot : ∀ j, (hj : j < xs.length) → got j = none ∨ got j = some xs[j])
    (hneed : ∀ j, (hj : j < xs.length) → 0 < (if h : j < P then (xs[i]).2 ⟨j, h⟩ else 0) → got j = some xs[j]) :
    resAlltoallv i xs[i] got = ys[i]? := by
  unfold semAlltoallv at h
  split at h
  · rename_i hl
    split at h
    · rename_i hc
      injection h with h
      have hiP : i < P := hl ▸ hi
      have hb : ∀ s : Fin P, blockFor ⟨i, hiP⟩ (got s.val) = (xs[s.val]'(by have := s.isLt; omega)).1 ⟨i, hiP⟩ := by
        intro s
        have hsl : s.val < xs.length := by have := s.isLt; omega
        have h2 : (xs[i]).2 s = ((xs[s.val]).1 ⟨i, hiP⟩).length := hc ⟨i, hiP⟩ s
        rcases hgot s.val hsl with e | e
        · have hz : ¬ 0 < (xs[i]).2 s := by
            intro hpos
            have := hneed s.val hsl (by rw [dif_pos s.isLt]; exact hpos)
            rw [e] at this
            cases this
          rw [e]
          exact (List.eq_nil_of_length_eq_zero (by omega)).symm
        · rw [e]; rfl
      unfold resAlltoallv
      rw [dif_pos hiP]
      rw [if_pos (fun s => by rw [hb s]; exact (hc ⟨i, hiP⟩ s).symm), ← h]
      rw [List.getElem?_eq_getElem (by simpa using hiP), List.getElem_ofFn]
      congr 1
      funext s
      exact hb s
    · cases h
  · cases h

theorem resScatterv_ok {root : Fin P} {xs : List ((Fin P → List τ) × Nat)} {ys : List (List τ)} (h : semScatterv root xs = some ys) (i : Nat)
    (hi : i < xs.length) (got : Nat → Option ((Fin P → List τ) × Nat))
    (hgot : ∀ j, (hj : j < xs.length) → got j = none ∨ got j = some xs[j])
    (hneed : ∀ j, (hj : j < xs.length) → 0 < (if j = root.val then (xs[i]).2 else 0) → got j = some xs[j]) :
    resScatterv root i xs[i] got = ys[i]? := by
  unfold semScatterv at h
  split at h
  · rename_i hl
    split at h
    · rename_i hc
      injection h with h
      have hiP : i < P := hl ▸ hi
      have hrl : root.val < xs.length := by have := root.isLt; omega
      have h2 : (xs[i]).2 = ((xs[root.val]).1 ⟨i, hiP⟩).length := hc ⟨i, hiP⟩
      have hb : blockFor ⟨i, hiP⟩ (got root.val) = (xs[root.val]).1 ⟨i, hiP⟩ := by
        rcases hgot root.val hrl with e | e
        · have hz : ¬ 0 < (xs[i]).2 := by
            intro hpos
            have := hneed root.val hrl (by rw [if_pos rfl]; exact hpos)
            rw [e] at this
            cases this
          rw [e]
          exact (List.eq_nil_of_length_eq_zero (by omega)).symm
        · rw [e]; rfl
      unfold resScatterv
      rw [dif_pos hiP, hb]
      rw [if_pos h2.symm, ← h]
      rw [List.getElem?_eq_getElem (by simpa using hiP), List.getElem_ofFn]
      rfl
    · cases h
  · cases h

theorem resAllgather_ok {xs : List τ} {ys : List (List τ)} (h : some (xs.map (fun _ => xs)) = some ys) (i : Nat) (hi : i < xs.length)
    (got : Nat → Option τ) (hneed : ∀ j, (hj : j < xs.length) → got j = some xs[j]) : (List.range xs.length).mapM got = ys[i]? := by
  injection h with h
  rw [mapM_range got xs xs.length (Nat.le_refl _) (fun j hj _ => hneed j hj), List.take_length, ← h,
    List.getElem?_map, List.getElem?_eq_getElem hi]
  rfl

theorem resBarrier_ok {xs ys : List Unit} (h : some (xs.map (fun _ => ())) = some ys) (i : Nat) (hi : i < xs.length) : some () = ys[i]? := by
  injection h with h
  rw [← h, List.getElem?_map, List.getElem?_eq_getElem hi]
  rfl

/-- From the contributions it needs a member computes its result of the call. -/
theorem result_ok {κ : Kind P} {xs : List κ.In} {ys : List κ.Out} (h : κ.sem xs = some ys) (i : Nat) (hi : i < xs.length) (got : Nat → Option κ.In)
    (hgot : ∀ j, (hj : j < xs.length) → got j = none ∨ got j = some xs[j])
    (hneed : ∀ j, (hj : j < xs.length) → 0 < κ.takes i xs[i] j → got j = some xs[j]) :
    κ.result xs.length i xs[i] got = ys[i]? := by
  cases κ with
  | barrier => exact resBarrier_ok h i hi
  | bcast τ root count => exact resBcast_ok h i hi got hneed
  | reduce τ op root => exact resReduce_ok h i hi got hneed
  | allreduce τ op count => exact resAllreduce_ok h i hi got hneed
  | scan τ op => exact resScan_ok h i hi got hneed
  | allgather τ => exact resAllgather_ok h i hi got (fun j hj => hneed j hj Nat.one_pos)
  | alltoall τ => exact resAlltoall_ok h i hi got (fun j hj => hneed j hj Nat.one_pos)
  | alltoallv τ => exact resAlltoallv_ok h i hi got hgot hneed
  | scatterv τ root => exact resScatterv_ok h i hi got hgot hneed

/-! ## Sending and gathering by all members -/

theorem sendThen_eq (l : List (Fin P × Nat × Msg)) (k : Prog P α) : sendThen l k = (sendAll l >>= fun _ => k) := by
  induction l with
  | nil => rfl
  | cons x xs ih => rw [sendThen, sendAll, isend_bind, ih]

theorem sends_all {S : Fin P → List (Fin P × Nat × Msg)} {k : Fin P → Prog P α} (l : List (Fin P)) :
    ∀ s : State P α, l.Nodup → (∀ r ∈ l, s.progs r = sendThen (S r) (k r)) →
    Steps bf s ⟨fun q => if q ∈ l then k q else s.progs q, fun a b t => s.chan a b t ++ (if a ∈ l then pick (S a) b t else []), s.ctx⟩ := by
  induction l with
  | nil =>
    intro s _ _
    have : (⟨fun q => if q ∈ [] then k q else s.progs q, fun a b t => s.chan a b t ++ (if a ∈ [] then pick (S a) b t else []), s.ctx⟩ : State P α) = s :=
      State.ext' (by simp) (by simp) rfl
    rw [this]
    exact .refl
  | cons r l ih =>
    intro s hn hs
    refine (sendAll_steps (S r) s r (k r) (by rw [hs r (by simp), sendThen_eq])).trans ?_
    have hrl := (List.nodup_cons.1 hn).1
    have := ih ⟨Function.update s.progs r (k r), fun a b t => s.chan a b t ++ (if a = r then pick (S r) b t else []), s.ctx⟩
      (List.nodup_cons.1 hn).2 (fun q hq => by
        have : q ≠ r := fun e => hrl (e ▸ hq)
        simp [this, hs q (by simp [hq])])
    refine Steps.to this (State.ext' ?_ ?_ rfl)
    · funext q
      by_cases e : q = r
      · subst e; simp [hrl]
      · simp [e]
    · funext a b t
      by_cases e : a = r
      · subst e; simp [hrl]
      · simp [e]

/-- What is known after gathering. -/
def gathered (z : Fin P → τ) (l : List (Fin P × Nat)) (got : Nat → Option τ) : Nat → Option τ :=
  l.foldl (fun g q => Function.update g q.2 (some (z q.1))) got

theorem gathered_other (z : Fin P → τ) (l : List (Fin P × Nat)) (j : Nat) : ∀ got : Nat → Option τ, j ∉ l.map Prod.snd →
    gathered z l got j = got j := by
  induction l with
  | nil => intro got _; rfl
  | cons q l ih =>
    intro got h
    rw [List.map_cons, List.mem_cons, not_or] at h
    show gathered z l (Function.update got q.2 (some (z q.1))) j = _
    rw [ih _ h.2, Function.update_of_ne h.1]

theorem gathered_mem (z : Fin P → τ) (l : List (Fin P × Nat)) (p : Fin P) (j : Nat) : ∀ got : Nat → Option τ, (l.map Prod.snd).Nodup →
    (p, j) ∈ l → gathered z l got j = some (z p) := by
  induction l with
  | nil => intro got _ h; cases h
  | cons q l ih =>
    intro got hn h
    rw [List.map_cons, List.nodup_cons] at hn
    show gathered z l (Function.update got q.2 (some (z q.1))) j = _
    rcases List.mem_cons.1 h with e | h
    · subst e
      rw [gathered_other z l _ _ hn.1, Function.update_self]
    · exact ih _ hn.2 h

theorem gather_steps {z : Fin P → τ} {tag : Nat} {r : Fin P} {k : (Nat → Option τ) → Prog P α} (l : List (Fin P × Nat)) :
    ∀ (s : State P α) (got : Nat → Option τ), s.progs r = gatherThen τ tag l got k → (l.map Prod.fst).Nodup →
    (∀ q ∈ l, s.chan q.1 r tag = [⟨τ, [z q.1]⟩]) →
    Steps bf s ⟨Function.update s.progs r (k (gathered z l got)),
      fun a b t => if b = r ∧ t = tag ∧ a ∈ l.map Prod.fst then [] else s.chan a b t, s.ctx⟩ := by
  induction l with
  | nil =>
    intro s got hs _ _
    have : (⟨Function.update s.progs r (k (gathered z [] got)),
      fun a b t => if b = r ∧ t = tag ∧ a ∈ ([] : List (Fin P × Nat)).map Prod.fst then [] else s.chan a b t, s.ctx⟩ : State P α) = s := by
      refine State.ext' ?_ (by simp) rfl
      funext q
      by_cases e : q = r
      · subst e
        show Function.update s.progs q _ q = _
        rw [Function.update_self, hs]
        rfl
      · show Function.update s.progs r _ q = _
        rw [Function.update_of_ne e]
    rw [this]
    exact .refl
  | cons q l ih =>
    intro s got hs hn hc
    rw [List.map_cons, List.nodup_cons] at hn
    have step : Step bf s ⟨Function.update s.progs r (gatherThen τ tag l (Function.update got q.2 (some (z q.1))) k), fun a b t =>
        if a = q.1 ∧ b = r ∧ t = tag then [] else s.chan a b t, s.ctx⟩ :=
      .recv r q.1 tag τ _ [z q.1] [] (by rw [hs]; rfl) (hc q (by simp)) rfl (fun a b t => rfl) rfl
    refine Relation.ReflTransGen.head step ?_
    have := ih ⟨Function.update s.progs r (gatherThen τ tag l (Function.update got q.2 (some (z q.1))) k), fun a b t =>
        if a = q.1 ∧ b = r ∧ t = tag then [] else s.chan a b t, s.ctx⟩ (Function.update got q.2 (some (z q.1))) (by simp) hn.2 (fun p hp => by
          have : p.1 ≠ q.1 := fun e => hn.1 (e ▸ List.mem_map_of_mem hp)
          simp [this, hc p (by simp [hp])])
    refine Steps.to this (State.ext' ?_ ?_ rfl)
    · simp [gathered]
    · funext a b t
      simp only [List.map_cons, List.mem_cons]
      split_ifs <;> first | rfl | (exfalso; tauto)

theorem gathers_all {z : Fin P → τ} {tag : Nat} {G : Fin P → List (Fin P × Nat)} {k : Fin P → (Nat → Option τ) → Prog P α}
    (hG : ∀ r, ((G r).map Prod.fst).Nodup) (l : List (Fin P)) :
    ∀ s : State P α, l.Nodup → (∀ r ∈ l, s.progs r = gatherThen τ tag (G r) (fun _ => none) (k r)) →
    (∀ r ∈ l, ∀ q ∈ G r, s.chan q.1 r tag = [⟨τ, [z q.1]⟩]) →
    Steps bf s ⟨fun q => if q ∈ l then k q (gathered z (G q) (fun _ => none)) else s.progs q,
      fun a b t => if b ∈ l ∧ t = tag ∧ a ∈ (G b).map Prod.fst then [] else s.chan a b t, s.ctx⟩ := by
  induction l with
  | nil =>
    intro s _ _ _
    have : (⟨fun q => if q ∈ [] then k q (gathered z (G q) (fun _ => none)) else s.progs q,
      fun a b t => if b ∈ ([] : List (Fin P)) ∧ t = tag ∧ a ∈ (G b).map Prod.fst then [] else s.chan a b t, s.ctx⟩ : State P α) = s :=
      State.ext' (by simp) (by simp) rfl
    rw [this]
    exact .refl
  | cons r l ih =>
    intro s hn hs hc
    refine (gather_steps (z := z) (G r) s (fun _ => none) (hs r (by simp)) (hG r) (hc r (by simp))).trans ?_
    have hrl := (List.nodup_cons.1 hn).1
    have := ih ⟨Function.update s.progs r (k r (gathered z (G r) (fun _ => none))),
      fun a b t => if b = r ∧ t = tag ∧ a ∈ (G r).map Prod.fst then [] else s.chan a b t, s.ctx⟩
      (List.nodup_cons.1 hn).2 (fun q hq => by
        have : q ≠ r := fun e => hrl (e ▸ hq)
        simp [this, hs q (by simp [hq])]) (fun p hp q hq => by
        have : p ≠ r := fun e => hrl (e ▸ hp)
        simp [this, hc p (by simp [hp]) q hq])
    refine Steps.to this (State.ext' ?_ ?_ rfl)
    · funext q
      by_cases e : q = r
      · subst e; simp [hrl]
      · simp [e]
    · funext a b t
      by_cases e : b = r
      · subst e
        simp only [hrl, false_and, if_false, true_and, List.mem_cons, true_or]
      · simp only [e, false_and, if_false, List.mem_cons, false_or]

/-! ## The simulation -/

/-- The state of the expanded programs when no collective call is under way. -/
def expandState (w : Waits P) (s : State P α) : State P α :=
  ⟨fun r => byMessages w r (s.progs r), fun a b t => if t % 2 = 0 then s.chan a b (t / 2) else [], s.ctx⟩

theorem zipIdx_mem {M : List (Fin P)} (hM : M.Nodup) {q : Fin P} {j : Nat} : (q, j) ∈ M.zipIdx ↔ q ∈ M ∧ j = M.idxOf q := by
  rw [List.mem_zipIdx_iff_getElem?]
  constructor
  · intro h
    obtain ⟨hj, e⟩ := List.getElem?_eq_some_iff.1 h
    dsimp only at hj e
    refine ⟨e ▸ List.getElem_mem _, ?_⟩
    rw [← e, hM.idxOf_getElem]
  · rintro ⟨hq, rfl⟩
    exact List.getElem?_idxOf hq

theorem zipIdx_fst (M : List (Fin P)) (f : Fin P × Nat → Bool) (hM : M.Nodup) : ((M.zipIdx.filter f).map Prod.fst).Nodup := by
  refine List.Nodup.sublist (List.filter_sublist.map _) ?_
  rwa [List.zipIdx_map_fst]

theorem zipIdx_snd (M : List (Fin P)) (f : Fin P × Nat → Bool) : ((M.zipIdx.filter f).map Prod.snd).Nodup := by
  refine List.Nodup.sublist (List.filter_sublist.map _) ?_
  rw [List.zipIdx_map_snd]
  exact List.nodup_range'

theorem pick_cons (q : Fin P × Nat × Msg) (l : List (Fin P × Nat × Msg)) (b : Fin P) (t : Nat) :
    pick (q :: l) b t = if q.1 = b ∧ q.2.1 = t then q.2.2 :: pick l b t else pick l b t := by
  unfold pick
  rw [List.filter_cons]
  by_cases h : q.1 = b ∧ q.2.1 = t
  · rw [if_pos h, if_pos (decide_eq_true h)]; rfl
  · rw [if_neg h, if_neg (by simpa using h)]

theorem pick_not {L : List (Fin P × Nat)} {tag : Nat} {m : Msg} {b : Fin P} {t : Nat} (h : b ∉ L.map Prod.fst) :
    pick (L.map (fun q => (q.1, tag, m))) b t = [] := by
  induction L with
  | nil => rfl
  | cons q L ih =>
    rw [List.map_cons, List.mem_cons, not_or] at h
    rw [List.map_cons, pick_cons, if_neg (fun e => h.1 e.1.symm)]
    exact ih h.2

theorem pick_mem {L : List (Fin P × Nat)} {tag : Nat} {m : Msg} {b : Fin P} {j : Nat} (hL : (L.map Prod.fst).Nodup) (h : (b, j) ∈ L) :
    pick (L.map (fun q => (q.1, tag, m))) b tag = [m] := by
  induction L with
  | nil => cases h
  | cons q L ih =>
    rw [List.map_cons, List.nodup_cons] at hL
    rw [List.map_cons, pick_cons]
    rcases List.mem_cons.1 h with e | h
    · subst e
      rw [if_pos ⟨rfl, rfl⟩, pick_not hL.1]
    · have hne : q.1 ≠ b := fun e => hL.1 (by rw [e]; exact List.mem_map_of_mem (f := Prod.fst) h)
      rw [if_neg (fun e => hne e.1)]
      exact ih hL.2 h

theorem pick_ne {L : List (Fin P × Nat)} {tag : Nat} {m : Msg} {b : Fin P} {t : Nat} (h : pick (L.map (fun q => (q.1, tag, m))) b t ≠ []) :
    t = tag ∧ ∃ j, (b, j) ∈ L := by
  obtain ⟨x, hx⟩ := List.exists_mem_of_ne_nil _ h
  obtain ⟨y, hy, rfl⟩ := List.mem_map.1 hx
  obtain ⟨hy, hp⟩ := List.mem_filter.1 hy
  obtain ⟨q, hq, rfl⟩ := List.mem_map.1 hy
  simp only [decide_eq_true_eq] at hp
  exact ⟨hp.2.symm, q.2, hp.1 ▸ hq⟩

theorem expand_coll {w : Waits P} {s s' : State P α} {C : Comm P} {κ : Kind P} {x : Fin P → κ.In} {k : Fin P → κ.Out → Prog P α} {y : Fin P → κ.Out}
    (hnd : C.members.Nodup) (hs : ∀ r ∈ C.members, s.progs r = .coll C κ (x r) (k r))
    (hy : κ.sem (C.members.map x) = some (C.members.map y))
    (hs' : ∀ r ∈ C.members, s'.progs r = k r (y r)) (hrest : ∀ r, r ∉ C.members → s'.progs r = s.progs r)
    (hchan : s'.chan = s.chan) (hctx : s'.ctx = s.ctx) : Steps bf (expandState w s) (expandState w s') := by
  obtain ⟨M, hM⟩ : ∃ M, M = C.members := ⟨_, rfl⟩
  rw [← hM] at hnd hs hy hs' hrest
  obtain ⟨me, hme⟩ : ∃ me : Fin P → Nat, ∀ r, me r = M.idxOf r := ⟨_, fun _ => rfl⟩
  obtain ⟨S, hS⟩ : ∃ S : Fin P → List (Fin P × Nat), ∀ r, S r = M.zipIdx.filter (fun q => decide (0 < κ.gives (me r) (x r) q.2) || w C κ q.2 (me r)) :=
    ⟨_, fun _ => rfl⟩
  obtain ⟨G, hG⟩ : ∃ G : Fin P → List (Fin P × Nat), ∀ r, G r = M.zipIdx.filter (fun q => decide (0 < κ.takes (me r) (x r) q.2) || w C κ (me r) q.2) :=
    ⟨_, fun _ => rfl⟩
  obtain ⟨f, hf⟩ : ∃ f : Fin P → (Nat → Option κ.In) → Prog P α, ∀ r got, f r got = match κ.result M.length (me r) (x r) got with
      | some y => byMessages w r (k r y)
      | none => .fail := ⟨_, fun _ _ => rfl⟩
  have hlt : ∀ r ∈ M, me r < M.length := fun r hr => by rw [hme]; exact List.idxOf_lt_length_of_mem hr
  have hget : ∀ r, (hr : r ∈ M) → M[me r]'(hlt r hr) = r := by
    intro r hr
    have := List.getElem_idxOf (List.idxOf_lt_length_of_mem hr)
    simp only [hme]
    exact this
  have hprog : ∀ r ∈ M, (expandState w s).progs r = sendThen ((S r).map (fun q => (q.1, 2 * C.ctx + 1, ⟨κ.In, [x r]⟩)))
      (gatherThen κ.In (2 * C.ctx + 1) (G r) (fun _ => none) (f r)) := by
    intro r hr
    show byMessages w r (s.progs r) = _
    have hfr : f r = fun got => match κ.result M.length (me r) (x r) got with
      | some y => byMessages w r (k r y)
      | none => .fail := funext (hf r)
    rw [hs r hr, byMessages, hfr, hS, hG, hme, hM]
    exact if_pos (hM ▸ hr)
  have memS : ∀ a b j, (b, j) ∈ S a ↔ b ∈ M ∧ j = me b ∧ (0 < κ.gives (me a) (x a) (me b) ∨ w C κ (me b) (me a) = true) := by
    intro a b j
    rw [hS, List.mem_filter, zipIdx_mem hnd, ← hme]
    simp only [Bool.or_eq_true, decide_eq_true_eq]
    constructor
    · rintro ⟨⟨h1, rfl⟩, h3⟩; exact ⟨h1, rfl, h3⟩
    · rintro ⟨h1, rfl, h3⟩; exact ⟨⟨h1, rfl⟩, h3⟩
  have memG : ∀ a b j, (a, j) ∈ G b ↔ a ∈ M ∧ j = me a ∧ (0 < κ.takes (me b) (x b) (me a) ∨ w C κ (me b) (me a) = true) := by
    intro a b j
    rw [hG, List.mem_filter, zipIdx_mem hnd, ← hme]
    simp only [Bool.or_eq_true, decide_eq_true_eq]
    constructor
    · rintro ⟨⟨h1, rfl⟩, h3⟩; exact ⟨h1, rfl, h3⟩
    · rintro ⟨h1, rfl, h3⟩; exact ⟨⟨h1, rfl⟩, h3⟩
  have hxs : ∀ r, (hr : r ∈ M) → (M.map x)[me r]'(by rw [List.length_map]; exact hlt r hr) = x r := by
    intro r hr
    rw [List.getElem_map, hget r hr]
  have fits : ∀ a ∈ M, ∀ b ∈ M, κ.gives (me a) (x a) (me b) = κ.takes (me b) (x b) (me a) := by
    intro a ha b hb
    have := sem_fits hy (me b) (me a) (by rw [List.length_map]; exact hlt b hb) (by rw [List.length_map]; exact hlt a ha)
    rwa [hxs a ha, hxs b hb] at this
  have both : ∀ a ∈ M, ∀ b ∈ M, (b, me b) ∈ S a ↔ (a, me a) ∈ G b := by
    intro a ha b hb
    rw [memS, memG, fits a ha b hb]
    simp [ha, hb]
  have s1 := sends_all (bf := bf) (S := fun r => (S r).map (fun q => (q.1, 2 * C.ctx + 1, ⟨κ.In, [x r]⟩)))
    (k := fun r => gatherThen κ.In (2 * C.ctx + 1) (G r) (fun _ => none) (f r)) M (expandState w s) hnd hprog
  refine s1.trans ?_
  have s2 := gathers_all (bf := bf) (z := x) (tag := 2 * C.ctx + 1) (G := G) (k := f) (fun r => by rw [hG]; exact zipIdx_fst M _ hnd) M
    ⟨fun q => if q ∈ M then gatherThen κ.In (2 * C.ctx + 1) (G q) (fun _ => none) (f q) else (expandState w s).progs q,
      fun a b t => (expandState w s).chan a b t ++ (if a ∈ M then pick ((S a).map (fun q => (q.1, 2 * C.ctx + 1, ⟨κ.In, [x a]⟩))) b t else []), s.ctx⟩
    hnd (fun r hr => by simp [hr]) (fun r hr q hq => by
      obtain ⟨a, j⟩ := q
      obtain ⟨ha, rfl, h3⟩ := (memG a r j).1 hq
      have hin := (both a ha r hr).2 hq
      have hodd : (2 * C.ctx + 1) % 2 ≠ 0 := by omega
      simp only [expandState, if_neg hodd, ha, if_true, List.nil_append]
      rw [pick_mem (by rw [hS]; exact zipIdx_fst M _ hnd) hin])
  refine Steps.to s2 (State.ext' ?_ ?_ hctx.symm)
  · funext q
    by_cases hq : q ∈ M
    · simp only [hq, if_true, expandState]
      rw [hs' q hq, hf]
      have hlen : M.length = (M.map x).length := by simp
      have := result_ok hy (me q) (by rw [List.length_map]; exact hlt q hq) (gathered x (G q) (fun _ => none)) (fun j hj => ?_) (fun j hj hpos => ?_)
      · rw [hxs q hq] at this
        rw [hlen, this, List.getElem?_map, List.getElem?_eq_getElem (hlt q hq), hget q hq]
        rfl
      · by_cases hm : j ∈ (G q).map Prod.snd
        · obtain ⟨p, hp, rfl⟩ := List.mem_map.1 hm
          obtain ⟨a, j⟩ := p
          obtain ⟨ha, rfl, _⟩ := (memG a q j).1 hp
          right
          rw [gathered_mem x (G q) a (me a) _ (by rw [hG]; exact zipIdx_snd M _) hp]
          simp only [hxs a ha]
        · left
          rw [gathered_other x (G q) j _ hm]
      · have hj' : j < M.length := by rwa [List.length_map] at hj
        obtain ⟨a, ha⟩ : ∃ a, a = M[j] := ⟨_, rfl⟩
        have hjm : j = me a := by rw [hme, ha, hnd.idxOf_getElem]
        have haM : a ∈ M := ha ▸ List.getElem_mem _
        rw [hxs q hq] at hpos
        have hp : (a, j) ∈ G q := (memG a q j).2 ⟨haM, hjm, .inl (hjm ▸ hpos)⟩
        rw [gathered_mem x (G q) a j _ (by rw [hG]; exact zipIdx_snd M _) hp, List.getElem_map, ← ha]
    · simp only [hq, if_false, expandState]
      rw [hrest q hq]
  · funext a b t
    simp only [expandState, hchan]
    by_cases hc : b ∈ M ∧ t = 2 * C.ctx + 1 ∧ a ∈ (G b).map Prod.fst
    · rw [if_pos hc, if_neg (by omega)]
    · rw [if_neg hc]
      have : (if a ∈ M then pick ((S a).map (fun q => (q.1, 2 * C.ctx + 1, (⟨κ.In, [x a]⟩ : Msg)))) b t else []) = [] := by
        by_cases ha : a ∈ M
        · rw [if_pos ha]
          by_contra hne
          obtain ⟨ht, j, hj⟩ := pick_ne hne
          obtain ⟨hb, rfl, _⟩ := (memS a b j).1 hj
          exact hc ⟨hb, ht, List.mem_map.2 ⟨(a, me a), (both a ha b hb).1 hj, rfl⟩⟩
        · rw [if_neg ha]
      rw [this, List.append_nil]

theorem expand_step {w : Waits P} {s s' : State P α} (h : Step bf s s') : Steps bf (expandState w s) (expandState w s') := by
  cases h with
  | coll C κ x k y hne hnd hs hy hs' hrest hchan hctx => exact expand_coll hnd hs hy hs' hrest hchan hctx
  | split color k hne hs hs' hchan hctx =>
    refine .single (.split color (fun r C => byMessages w r (k r C)) hne (fun r => ?_) (fun r => ?_) ?_ hctx)
    · show byMessages w r (s.progs r) = _
      rw [hs, byMessages]
    · show byMessages w r (s'.progs r) = _
      rw [hs']
      rfl
    · simp only [expandState, hchan]
  | isend r dst tag m k hs hs' hchan hctx =>
    refine .single (.isend r dst (2 * tag) m (byMessages w r k) ?_ ?_ (fun a b t => ?_) hctx)
    · show byMessages w r (s.progs r) = _
      rw [hs, byMessages]
    · funext q
      show byMessages w q (s'.progs q) = _
      rw [hs']
      by_cases e : q = r
      · subst e; simp
      · rw [Function.update_of_ne e, Function.update_of_ne e]; rfl
    · show (if t % 2 = 0 then s'.chan a b (t / 2) else []) = _
      simp only [expandState]
      rw [hchan]
      by_cases ht : t % 2 = 0
      · rw [if_pos ht, if_pos ht]
        have : t / 2 = tag ↔ t = 2 * tag := by omega
        simp only [this]
      · have : ¬ (a = r ∧ b = dst ∧ t = 2 * tag) := by omega
        rw [if_neg ht, if_neg ht, if_neg this]
  | recv r src tag τ k m rest hs hm hs' hchan hctx =>
    refine .single (.recv r src (2 * tag) τ (fun m => byMessages w r (k m)) m rest ?_ ?_ ?_ (fun a b t => ?_) hctx)
    · show byMessages w r (s.progs r) = _
      rw [hs, byMessages]
    · show (if 2 * tag % 2 = 0 then s.chan src r (2 * tag / 2) else []) = _
      rw [if_pos (by omega), Nat.mul_div_cancel_left _ (by decide)]
      exact hm
    · funext q
      show byMessages w q (s'.progs q) = _
      rw [hs']
      by_cases e : q = r
      · subst e; simp
      · rw [Function.update_of_ne e, Function.update_of_ne e]; rfl
    · show (if t % 2 = 0 then s'.chan a b (t / 2) else []) = _
      simp only [expandState]
      rw [hchan]
      by_cases ht : t % 2 = 0
      · rw [if_pos ht, if_pos ht]
        have : t / 2 = tag ↔ t = 2 * tag := by omega
        simp only [this]
      · have : ¬ (a = src ∧ b = r ∧ t = 2 * tag) := by omega
        rw [if_neg ht, if_neg ht, if_neg this]
  | waitall r k hs hempty hs' hchan hctx =>
    refine .single (.waitall r (byMessages w r k) ?_ (fun d t m hm => ?_) ?_ ?_ hctx)
    · show byMessages w r (s.progs r) = _
      rw [hs, byMessages]
    · change m ∈ (if t % 2 = 0 then s.chan r d (t / 2) else []) at hm
      split at hm
      · exact hempty d (t / 2) m hm
      · cases hm
    · funext q
      show byMessages w q (s'.progs q) = _
      rw [hs']
      by_cases e : q = r
      · subst e; simp
      · rw [Function.update_of_ne e, Function.update_of_ne e]; rfl
    · simp only [expandState, hchan]

theorem expand_steps {w : Waits P} {s s' : State P α} (h : Steps bf s s') : Steps bf (expandState w s) (expandState w s') := by
  induction h with
  | refl => exact .refl
  | tail _ h ih => exact ih.trans (expand_step h)

end HBT.Spmd
