import Verif.Lemmas.LinkedSearch
/-!
# Samples, parallel lists and their merge
-/
set_option linter.unusedSectionVars false
namespace HBT.LL
open HBT.Model HBT.Spec HBT.Props

/-- The samples of the threads split the indices below `n`. -/
structure Split (s : Nat → PosSample) (T n : Nat) : Prop where
  lt : ∀ t i, t < T → i < (s t).np → (s t).restore i < n
  inj : ∀ t t' i i', t < T → t' < T → i < (s t).np → i' < (s t').np →
    (s t).restore i = (s t').restore i' → t = t' ∧ i = i'
  cover : ∀ p, p < n → ∃ t i, t < T ∧ i < (s t).np ∧ (s t).restore i = p

theorem lattice_split (T n : Nat) (hT : 0 < T) :
    ∃ s, (∀ t, latticeSample t T n = .ok (s t)) ∧ Split s T n := by
  refine ⟨fun t => { np := n / T + (if n % T > t then 1 else 0), restore := fun i => i * T + t }, ?_, ?_⟩
  · intro t
    rw [latticeSample, if_neg (by omega)]
  have hdm := Nat.div_add_mod n T
  have hmod := Nat.mod_lt n hT
  have key : ∀ t i, t < T → (i < n / T + (if n % T > t then 1 else 0) ↔ i * T + t < n) := by
    intro t i ht
    rw [Nat.mul_comm T] at hdm
    generalize n / T = q at *
    generalize n % T = r at *
    constructor
    · intro hi
      split at hi
      · have : i * T ≤ q * T := Nat.mul_le_mul_right T (by omega)
        omega
      · have : (i + 1) * T ≤ q * T := Nat.mul_le_mul_right T (by omega)
        rw [Nat.succ_mul] at this
        omega
    · intro hi
      by_contra hcon
      split at hcon
      · have : (q + 1) * T ≤ i * T := Nat.mul_le_mul_right T (by omega)
        rw [Nat.succ_mul] at this
        omega
      · have : q * T ≤ i * T := Nat.mul_le_mul_right T (by omega)
        omega
  refine ⟨fun t i ht hi => (key t i ht).1 hi, ?_, ?_⟩
  · intro t t' i i' ht ht' hi hi' he
    simp only at he
    have h1 : t = t' := by
      have := congrArg (· % T) he
      simp only [Nat.mul_comm _ T, Nat.mul_add_mod] at this
      rwa [Nat.mod_eq_of_lt ht, Nat.mod_eq_of_lt ht'] at this
    subst h1
    exact ⟨rfl, Nat.eq_of_mul_eq_mul_right hT (by omega)⟩
  · intro p hp
    have h1 := Nat.div_add_mod p T
    have h2 := Nat.mod_lt p hT
    rw [Nat.mul_comm] at h1
    exact ⟨p % T, p / T, h2, (key _ _ h2).2 (by omega), h1⟩

theorem block_split (T n : Nat) (hT : 0 < T) :
    ∃ s, (∀ t, t < T → blockSample t T n = .ok (s t)) ∧ Split s T n := by
  obtain ⟨seg, h1, hadj, hcov, _⟩ := C02_fair_split T n hT
  refine ⟨fun t => { np := (seg t).2 - (seg t).1, restore := fun i => (seg t).1 + i }, ?_, ?_⟩
  · intro t ht
    rw [blockSample, h1 t ht]
    rfl
  have hle : ∀ t, t < T → (seg t).2 ≤ n := by
    intro t ht
    have := h1 t ht
    unfold assignTasks at this
    rw [if_neg (by omega)] at this
    by_cases hcond : (if t < n % T then n / T + 1 else n / T) + (n / T * t + min (n % T) t) ≤ n
    · simp only [hcond, if_true, Outcome.ok.injEq] at this
      rw [← this]; exact hcond
    · simp only [hcond, if_false, reduceCtorEq] at this
  refine ⟨?_, ?_, ?_⟩
  · intro t i ht hi
    have := hle t ht
    simp only at hi ⊢
    omega
  · intro t t' i i' ht ht' hi hi' he
    simp only at hi hi' he
    have hp : (seg t).1 + i < n := by have := hle t ht; omega
    obtain ⟨w, hw, huniq⟩ := hcov _ hp
    have e1 := huniq t ⟨ht, by omega, by omega⟩
    have e2 := huniq t' ⟨ht', by omega, by omega⟩
    have e12 : t = t' := e1.trans e2.symm
    subst e12
    exact ⟨rfl, by omega⟩
  · intro p hp
    obtain ⟨w, ⟨hw, h2, h3⟩, _⟩ := hcov p hp
    exact ⟨w, p - (seg w).1, hw, by simp only; omega, by simp only; omega⟩

section Field
variable {K : Type} [Field K] [LinearOrder K] [IsStrictOrderedRing K] [FloorRing K]

theorem samplePositions_ok (s : PosSample) (pts : List (Fin 3 → K))
    (h : ∀ i, i < s.np → s.restore i < pts.length) :
    ∃ xs, samplePositions s pts = .ok xs ∧ xs.length = s.np ∧
      ∀ i, i < s.np → xs[i]? = pts[s.restore i]? := by
  let F : Nat → List (Fin 3 → K) := fun i => (pts[s.restore i]?).toList
  have hF : ∀ i, i < s.np → ∃ x, pts[s.restore i]? = some x ∧ F i = [x] := by
    intro i hi
    refine ⟨pts[s.restore i]'(h i hi), List.getElem?_eq_getElem (h i hi), ?_⟩
    simp [F, h i hi]
  have key : ∀ m, m ≤ s.np → ((List.range m).flatMap F).length = m ∧
      ∀ i, i < m → ((List.range m).flatMap F)[i]? = pts[s.restore i]? := by
    intro m
    induction m with
    | zero => intro _; simp
    | succ m ih =>
      intro hm
      obtain ⟨h1, h2⟩ := ih (by omega)
      obtain ⟨x, hx, hFx⟩ := hF m (by omega)
      rw [List.range_succ, List.flatMap_append]
      simp only [List.flatMap_cons, List.flatMap_nil, List.append_nil, hFx]
      refine ⟨by simp [h1], ?_⟩
      intro i hi
      by_cases him : i = m
      · subst him
        rw [List.getElem?_append_right (by omega), h1]
        simp [hx]
      · rw [List.getElem?_append_left (by omega)]
        exact h2 i (by omega)
  refine ⟨(List.range s.np).flatMap F, ?_, (key _ (le_refl _)).1, (key _ (le_refl _)).2⟩
  refine collectAll_ok _ F _ (fun i hi => ?_)
  obtain ⟨x, hx, hFx⟩ := hF i (List.mem_range.1 hi)
  simp only [Outcome.get, hx, Outcome.bind_ok, hFx]

/-- The lists of the threads. -/
structure Threads (s : Nat → PosSample) (tl : Nat → LinkedCells K) (T : Nat) (pts : List (Fin 3 → K))
    (g : CellGrid K) : Prop where
  split : Split s T pts.length
  complete : ∀ t, t < T → Complete (tl t)
  grid : ∀ t, t < T → (tl t).grid = g
  len : ∀ t, t < T → (tl t).pts.length = (s t).np
  pos : ∀ t i, t < T → i < (s t).np → (tl t).pts[i]? = pts[(s t).restore i]?

theorem buildThreads_ok (sample : Nat → Nat → Nat → Outcome PosSample) (T ndiv : Nat)
    (pts : List (Fin 3 → K)) (L : K) (periodic : Bool) (hn : 0 < ndiv)
    (hsize : ndiv ^ 3 < 2 ^ 31) (hL : 0 < L) (s : Nat → PosSample)
    (hs : ∀ t, t < T → sample t T pts.length = .ok (s t)) (hsp : Split s T pts.length) :
    ∃ tl, buildThreads sample T ndiv pts L periodic = .ok ((List.range T).map fun t => (s t, tl t)) ∧
      Threads s tl T pts (boxGrid ndiv L periodic) := by
  have hx : ∀ t, ∃ xs, t < T → samplePositions (s t) pts = .ok xs ∧ xs.length = (s t).np ∧
      ∀ i, i < (s t).np → xs[i]? = pts[(s t).restore i]? := by
    intro t
    by_cases ht : t < T
    · obtain ⟨xs, h⟩ := samplePositions_ok (s t) pts (fun i hi => hsp.lt t i ht hi)
      exact ⟨xs, fun _ => h⟩
    · exact ⟨[], fun h => absurd h ht⟩
  choose xs hxs using hx
  choose tl htl using fun t => build_box ndiv (xs t) L periodic hn hsize hL
  refine ⟨tl, ?_, hsp, fun t _ => (htl t).2.1, fun t _ => (htl t).2.2.1, ?_, ?_⟩
  · rw [buildThreads, collectAll_ok _ (fun t => [(s t, tl t)])]
    · rw [List.map_eq_flatMap]
    · intro t ht
      have ht' := List.mem_range.1 ht
      rw [buildThread, hs t ht', Outcome.bind_ok, (hxs t ht').1, Outcome.bind_ok, (htl t).1, Outcome.bind_ok]
  · intro t ht
    rw [(htl t).2.2.2]; exact (hxs t ht).2.1
  · intro t i ht hi
    rw [(htl t).2.2.2]; exact (hxs t ht).2.2 i hi

theorem Threads.mem {s : Nat → PosSample} {tl : Nat → LinkedCells K} {T : Nat} {pts : List (Fin 3 → K)}
    {g : CellGrid K} (h : Threads s tl T pts g) (t i : Nat) (ht : t < T) (x : Fin 3 → K)
    (hx : (tl t).pts[i]? = some x) : i < (s t).np ∧ pts[(s t).restore i]? = some x := by
  have hi : i < (s t).np := by rw [← h.len t ht]; exact (List.getElem?_eq_some_iff.1 hx).1
  exact ⟨hi, by rw [← h.pos t i ht hi]; exact hx⟩

/-- Every search that reports the particles with property `Q` does so on the threads together. -/
theorem searchPara_ok {s : Nat → PosSample} {tl : Nat → LinkedCells K} {T : Nat} {pts : List (Fin 3 → K)}
    {g : CellGrid K} (h : Threads s tl T pts g) (search : LinkedCells K → Outcome (List (Nat × K)))
    (Q : (Fin 3 → K) → K → Prop) (small : Prop)
    (hsearch : ∀ t, t < T → ∃ found, search (tl t) = .ok found ∧
      (∀ p r, (p, r) ∈ found ↔ ∃ x, (tl t).pts[p]? = some x ∧ Q x r) ∧
      (small → (found.map Prod.fst).Nodup))
    (order : List Nat) (horder : order.Perm (List.range T)) :
    ∃ found, searchPara search ((List.range T).map fun t => (s t, tl t)) order = .ok found ∧
      (∀ p r, (p, r) ∈ found ↔ ∃ x, pts[p]? = some x ∧ Q x r) ∧
      (small → (found.map Prod.fst).Nodup) := by
  have hf : ∀ t, ∃ found, t < T → search (tl t) = .ok found ∧
      (∀ p r, (p, r) ∈ found ↔ ∃ x, (tl t).pts[p]? = some x ∧ Q x r) ∧
      (small → (found.map Prod.fst).Nodup) := by
    intro t
    by_cases ht : t < T
    · obtain ⟨f, hf⟩ := hsearch t ht
      exact ⟨f, fun _ => hf⟩
    · exact ⟨[], fun h => absurd h ht⟩
  choose F hF using hf
  have hmemT : ∀ t, t ∈ order ↔ t < T := fun t => by rw [horder.mem_iff, List.mem_range]
  refine ⟨order.flatMap fun t => (F t).map fun f => ((s t).restore f.1, f.2), ?_, ?_, ?_⟩
  · rw [searchPara]
    refine collectAll_ok _ _ _ (fun t ht => ?_)
    have ht' := (hmemT t).1 ht
    have : Outcome.get ((List.range T).map fun t => (s t, tl t)) t = .ok (s t, tl t) := by
      simp [Outcome.get, ht']
    rw [this, Outcome.bind_ok]
    simp only
    rw [(hF t ht').1, Outcome.bind_ok]
  · intro p r
    simp only [List.mem_flatMap, List.mem_map, Prod.exists, Prod.mk.injEq]
    constructor
    · rintro ⟨t, ht, i, r', hm, rfl, rfl⟩
      have ht' := (hmemT t).1 ht
      obtain ⟨x, hx, hQ⟩ := ((hF t ht').2.1 i r').1 hm
      exact ⟨x, (h.mem t i ht' x hx).2, hQ⟩
    · rintro ⟨x, hx, hQ⟩
      obtain ⟨t, i, ht, hi, rfl⟩ := h.split.cover p (List.getElem?_eq_some_iff.1 hx).1
      refine ⟨t, (hmemT t).2 ht, i, r, ((hF t ht).2.1 i r).2 ⟨x, ?_, hQ⟩, rfl, rfl⟩
      rw [h.pos t i ht hi]; exact hx
  · intro hsmall
    rw [List.map_flatMap, List.nodup_flatMap]
    have hi : ∀ t, t < T → ∀ f ∈ F t, f.1 < (s t).np := by
      intro t ht f hf
      obtain ⟨x, hx, _⟩ := ((hF t ht).2.1 f.1 f.2).1 hf
      exact (h.mem t f.1 ht x hx).1
    constructor
    · intro t ht
      have ht' := (hmemT t).1 ht
      rw [List.map_map]
      have hnd := (hF t ht').2.2 hsmall
      unfold List.Nodup at hnd ⊢
      rw [List.pairwise_map] at hnd ⊢
      refine hnd.imp_of_mem ?_
      intro a b ha hb hne heq
      exact hne (h.split.inj t t a.1 b.1 ht' ht' (hi t ht' a ha) (hi t ht' b hb) heq).2
    · have : order.Nodup := horder.nodup_iff.2 List.nodup_range
      refine this.imp_of_mem ?_
      intro t t' ht ht' hne
      rw [Function.onFun, List.disjoint_left]
      intro p hp hp'
      simp only [List.mem_map] at hp hp'
      obtain ⟨_, ⟨a, ha, rfl⟩, rfl⟩ := hp
      obtain ⟨_, ⟨b, hb, rfl⟩, heq⟩ := hp'
      have ht := (hmemT t).1 ht
      have ht' := (hmemT t').1 ht'
      exact hne (h.split.inj t' t b.1 a.1 ht' ht (hi t' ht' b hb) (hi t ht a ha) heq).1.symm

/-! ## Merge -/

theorem pushChain_ok (ps : List Nat) : ∀ (next : List Int) (hd : Int) (l : List Nat),
    ChainAt next hd l → (∀ p ∈ ps, p < next.length) → ps.Nodup → (∀ p ∈ ps, p ∉ l) →
    ∃ next' hd', pushChain next hd ps = .ok (next', hd') ∧ next'.length = next.length ∧
      ChainAt next' hd' (ps.reverse ++ l) ∧
      ∀ h2 l2, ChainAt next h2 l2 → (∀ p ∈ ps, p ∉ l2) → ChainAt next' h2 l2 := by
  induction ps with
  | nil =>
    intro next hd l hc _ _ _
    exact ⟨next, hd, rfl, rfl, by simpa using hc, fun h2 l2 h _ => h⟩
  | cons p ps ih =>
    intro next hd l hc hlt hnd hdis
    have hp : p < next.length := hlt p (by simp)
    obtain ⟨hpn, hnd'⟩ := List.nodup_cons.1 hnd
    have hc' : ChainAt (next.set p hd) p (p :: l) :=
      .cons p hd l (by simp [hp]) (chain_set hc p hd (hdis p (by simp)))
    obtain ⟨next', hd', e, h1, h2, h3⟩ := ih (next.set p hd) p (p :: l) hc'
      (fun q hq => by simp; exact hlt q (by simp [hq])) hnd'
      (fun q hq => by
        simp only [List.mem_cons, not_or]
        exact ⟨fun hqp => hpn (hqp ▸ hq), hdis q (by simp [hq])⟩)
    refine ⟨next', hd', ?_, by simpa using h1, by simpa using h2, ?_⟩
    · rw [pushChain, Outcome.set_of_lt hp, Outcome.bind_ok, e]
    · intro a l2 ha hd2
      exact h3 a l2 (chain_set ha p hd (hd2 p (by simp))) (fun q hq => hd2 q (by simp [hq]))

theorem mergeChain_ok (ich : Nat) (ts : List Nat) (s : Nat → PosSample) (tl : Nat → LinkedCells K)
    (ps : Nat → List Nat) (hps : ∀ t ∈ ts, chainOf (tl t) ich = .ok (ps t))
    (hnd : ∀ t ∈ ts, ((ps t).map (s t).restore).Nodup) (hts : ts.Nodup)
    (hdis : ∀ t ∈ ts, ∀ t' ∈ ts, t ≠ t' → ∀ p ∈ (ps t).map (s t).restore, p ∉ (ps t').map (s t').restore) :
    ∀ (next : List Int) (hd : Int) (l : List Nat),
    (∀ t ∈ ts, ∀ p ∈ (ps t).map (s t).restore, p < next.length ∧ p ∉ l) →
    ChainAt next hd l → l.Nodup →
    ∃ next' hd' l', mergeChain ich (ts.map fun t => (s t, tl t)) (next, hd) = .ok (next', hd') ∧
      next'.length = next.length ∧ ChainAt next' hd' l' ∧ l'.Nodup ∧
      (∀ p, p ∈ l' ↔ p ∈ l ∨ ∃ t ∈ ts, p ∈ (ps t).map (s t).restore) ∧
      ∀ h2 l2, ChainAt next h2 l2 → (∀ t ∈ ts, ∀ p ∈ (ps t).map (s t).restore, p ∉ l2) →
        ChainAt next' h2 l2 := by
  induction ts with
  | nil =>
    intro next hd l _ hc hn
    exact ⟨next, hd, l, rfl, rfl, hc, hn, by simp, fun h2 l2 h _ => h⟩
  | cons t ts ih =>
    intro next hd l hlt hc hn
    obtain ⟨htn, hts'⟩ := List.nodup_cons.1 hts
    obtain ⟨next1, hd1, e1, h1, h2, h3⟩ := pushChain_ok ((ps t).map (s t).restore) next hd l hc
      (fun p hp => (hlt t (by simp) p hp).1) (hnd t (by simp)) (fun p hp => (hlt t (by simp) p hp).2)
    have hn1 : (((ps t).map (s t).restore).reverse ++ l).Nodup := by
      rw [List.nodup_append]
      refine ⟨List.nodup_reverse.2 (hnd t (by simp)), hn, ?_⟩
      intro a ha b hb hab
      rw [List.mem_reverse] at ha
      exact (hlt t (by simp) a ha).2 (hab ▸ hb)
    obtain ⟨next2, hd2, l2, e2, k1, k2, k3, k4, k5⟩ := ih (fun u hu => hps u (by simp [hu]))
      (fun u hu => hnd u (by simp [hu])) hts'
      (fun u hu u' hu' => hdis u (by simp [hu]) u' (by simp [hu'])) next1 hd1
      (((ps t).map (s t).restore).reverse ++ l)
      (fun u hu p hp => by
        refine ⟨by rw [h1]; exact (hlt u (by simp [hu]) p hp).1, ?_⟩
        simp only [List.mem_append, List.mem_reverse, not_or]
        exact ⟨hdis u (by simp [hu]) t (by simp) (fun e => htn (e ▸ hu)) p hp, (hlt u (by simp [hu]) p hp).2⟩)
      h2 hn1
    refine ⟨next2, hd2, l2, ?_, k1.trans h1, k2, k3, ?_, ?_⟩
    · rw [List.map_cons, mergeChain, hps t (by simp), Outcome.bind_ok, e1, Outcome.bind_ok, e2]
    · intro p
      rw [k4 p]
      simp only [List.mem_append, List.mem_reverse, List.mem_cons, exists_eq_or_imp]
      tauto
    · intro a la ha hd
      exact k5 a la (h3 a la ha (fun p hp => hd t (by simp) p hp)) (fun u hu p hp => hd u (by simp [hu]) p hp)

/-- The chains in `done` are merged, the others are empty. -/
structure Merged (ll : LinkedCells K) (done : List Nat) : Prop where
  hoc_len : ll.hoc.length = ll.grid.ndiv * ll.grid.ndiv * ll.grid.ndiv
  next_len : ll.next.length = ll.pts.length
  todo : ∀ i, i < ll.hoc.length → i ∉ done → ll.hoc[i]? = some (-1)
  chains : ∀ i ∈ done, ∃ h l, ll.hoc[i]? = some h ∧ ChainAt ll.next h l ∧ l.Nodup ∧
    ∀ p, p ∈ l ↔ ∃ x, ll.pts[p]? = some x ∧ cellOf ll.grid x = (i : Int)

theorem mergeCells_ok {s : Nat → PosSample} {tl : Nat → LinkedCells K} {T : Nat} {pts : List (Fin 3 → K)}
    {g : CellGrid K} (h : Threads s tl T pts g) (order : List Nat) :
    ∀ (ll : LinkedCells K) (done : List Nat), ll.grid = g → ll.pts = pts → Merged ll done →
      (∀ i ∈ order, i < ll.hoc.length ∧ i ∉ done) → order.Nodup →
      ∃ ll', mergeCells ((List.range T).map fun t => (s t, tl t)) order ll = .ok ll' ∧
        ll'.grid = g ∧ ll'.pts = pts ∧ Merged ll' (order.reverse ++ done) := by
  induction order with
  | nil =>
    intro ll done hg hp hm _ _
    exact ⟨ll, rfl, hg, hp, by simpa using hm⟩
  | cons ich order ih =>
    intro ll done hg hp hm hlt hnd
    obtain ⟨hin, hnd'⟩ := List.nodup_cons.1 hnd
    obtain ⟨hil, hid⟩ := hlt ich (by simp)
    -- the chains of the threads
    have hch : ∀ t, ∃ l, t < T → chainOf (tl t) (ich : Nat) = .ok l ∧ l.Nodup ∧
        ∀ i, i ∈ l ↔ ∃ x, (tl t).pts[i]? = some x ∧ cellOf g x = (ich : Int) := by
      intro t
      by_cases ht : t < T
      · obtain ⟨l, h1, h2, h3⟩ := chainOf_ok (tl t) (h.complete t ht) (ich : Nat) (by omega)
          (by rw [h.grid t ht, ← hg, ← hm.hoc_len]; omega)
        rw [h.grid t ht] at h3
        exact ⟨l, fun _ => ⟨h1, h2, h3⟩⟩
      · exact ⟨[], fun h => absurd h ht⟩
    choose ps hps using hch
    have hmem : ∀ t, t < T → ∀ p, p ∈ (ps t).map (s t).restore ↔
        (∃ i, i < (s t).np ∧ (s t).restore i = p) ∧ ∃ x, pts[p]? = some x ∧ cellOf g x = (ich : Int) := by
      intro t ht p
      simp only [List.mem_map]
      constructor
      · rintro ⟨i, hi, rfl⟩
        obtain ⟨x, hx, hc⟩ := ((hps t ht).2.2 i).1 hi
        obtain ⟨h1, h2⟩ := h.mem t i ht x hx
        exact ⟨⟨i, h1, rfl⟩, x, h2, hc⟩
      · rintro ⟨⟨i, hi, rfl⟩, x, hx, hc⟩
        exact ⟨i, ((hps t ht).2.2 i).2 ⟨x, by rw [h.pos t i ht hi]; exact hx, hc⟩, rfl⟩
    have hnp : ∀ t, t < T → ∀ i ∈ ps t, i < (s t).np := by
      intro t ht i hi
      obtain ⟨x, hx, _⟩ := ((hps t ht).2.2 i).1 hi
      exact (h.mem t i ht x hx).1
    have hndm : ∀ t, t < T → ((ps t).map (s t).restore).Nodup := by
      intro t ht
      have := (hps t ht).2.1
      unfold List.Nodup at this ⊢
      rw [List.pairwise_map]
      refine this.imp_of_mem ?_
      intro a b ha hb hne heq
      exact hne (h.split.inj t t a b ht ht (hnp t ht a ha) (hnp t ht b hb) heq).2
    obtain ⟨next', hd', l', e, k1, k2, k3, k4, k5⟩ := mergeChain_ok ich (List.range T) s tl ps
      (fun t ht => (hps t (List.mem_range.1 ht)).1) (fun t ht => hndm t (List.mem_range.1 ht)) List.nodup_range
      (fun t ht t' ht' hne p hp hp' => by
        have ht := List.mem_range.1 ht
        have ht' := List.mem_range.1 ht'
        obtain ⟨⟨i, hi, e1⟩, _⟩ := (hmem t ht p).1 hp
        obtain ⟨⟨i', hi', e2⟩, _⟩ := (hmem t' ht' p).1 hp'
        exact hne (h.split.inj t t' i i' ht ht' hi hi' (e1.trans e2.symm)).1)
      ll.next (-1) []
      (fun t ht p hp' => by
        obtain ⟨_, x, hx, _⟩ := (hmem t (List.mem_range.1 ht) p).1 hp'
        refine ⟨?_, by simp⟩
        rw [hm.next_len, hp]
        exact (List.getElem?_eq_some_iff.1 hx).1)
      (.nil _ (by omega)) List.nodup_nil
    have hl' : ∀ p, p ∈ l' ↔ ∃ x, pts[p]? = some x ∧ cellOf g x = (ich : Int) := by
      intro p
      rw [k4 p]
      constructor
      · rintro (hc | ⟨t, ht, hpm⟩)
        · simp at hc
        · exact ((hmem t (List.mem_range.1 ht) p).1 hpm).2
      · rintro ⟨x, hx, hc⟩
        obtain ⟨t, i, ht, hi, rfl⟩ := h.split.cover p (List.getElem?_eq_some_iff.1 hx).1
        exact Or.inr ⟨t, List.mem_range.2 ht, (hmem t ht _).2 ⟨⟨i, hi, rfl⟩, x, hx, hc⟩⟩
    have hm1 : Merged { ll with hoc := ll.hoc.set ich hd', next := next' } (ich :: done) := by
      refine ⟨by simpa using hm.hoc_len, k1.trans hm.next_len, ?_, ?_⟩
      · intro i hi hni
        simp only [List.length_set] at hi
        simp only [List.mem_cons, not_or] at hni
        simp only
        rw [List.getElem?_set_ne (Ne.symm hni.1)]
        exact hm.todo i hi hni.2
      · intro i hi
        simp only [List.mem_cons] at hi
        simp only [hg, hp]
        by_cases hii : i = ich
        · subst hii
          exact ⟨hd', l', by simp [hil], k2, k3, hl'⟩
        · have hi' : i ∈ done := by tauto
          obtain ⟨a, l, h1, h2, h3, h4⟩ := hm.chains i hi'
          rw [hg, hp] at h4
          refine ⟨a, l, by rw [List.getElem?_set_ne (Ne.symm hii)]; exact h1, ?_, h3, h4⟩
          refine k5 a l h2 (fun t ht p hpm hpl => ?_)
          obtain ⟨_, x, hx, hc⟩ := (hmem t (List.mem_range.1 ht) p).1 hpm
          obtain ⟨y, hy, hc'⟩ := (h4 p).1 hpl
          rw [hx] at hy
          cases hy
          rw [hc] at hc'
          omega
    obtain ⟨ll2, e2, g2, p2, m2⟩ := ih { ll with hoc := ll.hoc.set ich hd', next := next' } (ich :: done) hg hp hm1
      (fun i hi => by
        refine ⟨by simpa using (hlt i (by simp [hi])).1, ?_⟩
        simp only [List.mem_cons, not_or]
        exact ⟨fun e => hin (e ▸ hi), (hlt i (by simp [hi])).2⟩) hnd'
    refine ⟨ll2, ?_, g2, p2, by simpa using m2⟩
    rw [mergeCells]
    have e0 : Outcome.get ll.hoc ich = .ok (-1) := by
      simp [Outcome.get, hm.todo ich hil hid]
    rw [e0, Outcome.bind_ok, e, Outcome.bind_ok]
    simp only
    rw [Outcome.set_of_lt hil, Outcome.bind_ok, e2]

theorem parallelBuild_ok (T ndiv : Nat) (hT : 0 < T) (pts : List (Fin 3 → K)) (L : K) (periodic : Bool)
    (hn : 0 < ndiv) (hsize : ndiv ^ 3 < 2 ^ 31) (hL : 0 < L) (order : List Nat)
    (horder : order.Perm (List.range (ndiv ^ 3))) :
    ∃ ll, parallelBuild T ndiv pts L periodic order = .ok ll ∧ Complete ll ∧
      ll.grid = boxGrid ndiv L periodic ∧ ll.pts = pts := by
  have e3 : ndiv ^ 3 = ndiv * ndiv * ndiv := by ring
  obtain ⟨s, hs, hsp⟩ := block_split T pts.length hT
  obtain ⟨tl, hb, hth⟩ := buildThreads_ok blockSample T ndiv pts L periodic hn hsize hL s hs hsp
  have hm0 : Merged (LinkedCells.mk (boxGrid ndiv L periodic) pts
      (List.replicate (ndiv * ndiv * ndiv) (-1)) (List.replicate pts.length 0)) [] := by
    refine ⟨by simp [boxGrid], by simp, ?_, by simp⟩
    intro i hi _
    simp only [List.length_replicate] at hi
    simp [hi]
  obtain ⟨ll, e, g2, p2, m2⟩ := mergeCells_ok hth order _ [] rfl rfl hm0
    (fun i hi => by
      have := horder.mem_iff.1 hi
      rw [List.mem_range, e3] at this
      exact ⟨by simpa using this, by simp⟩) (horder.nodup_iff.2 List.nodup_range)
  refine ⟨ll, ?_, ?_, g2, p2⟩
  · rw [parallelBuild]
    simp only [hL, decide_true, Outcome.assert_true, Outcome.bind_ok]
    rw [hb, Outcome.bind_ok, initCells, initGrid_box ndiv pts L periodic hn hsize hL]
    simp only [Outcome.bind_ok]
    exact e
  · refine ⟨by rw [g2]; exact hn, by rw [g2]; exact fun d => ((boxGrid_ok ndiv L periodic hn hL).step_pos d).ne',
      m2.hoc_len, m2.next_len, ?_⟩
    intro i hi
    have hio : i ∈ order.reverse ++ [] := by
      rw [List.append_nil, List.mem_reverse, horder.mem_iff, List.mem_range, e3]
      rw [m2.hoc_len, g2] at hi
      exact hi
    obtain ⟨a, l, h1, h2, h3, h4⟩ := m2.chains i hio
    refine ⟨a, l, h1, h2, h3, fun p => ?_⟩
    rw [h4 p]
    constructor
    · rintro ⟨x, hx, hc⟩
      exact ⟨(List.getElem?_eq_some_iff.1 hx).1, x, hx, hc⟩
    · rintro ⟨_, h5⟩; exact h5

end Field
end HBT.LL
