import Verif.Lemmas.Exchange
import Verif.Model.Partition
import Mathlib.Data.Int.Interval
import Mathlib.Algebra.BigOperators.Fin
import Mathlib.Algebra.Order.BigOperators.Group.Finset
/-!
# Lemmas about the particle redistribution
-/
namespace HBT
open HBT.Model HBT.Spec
variable {D : Type}

/-- Distinct integers in `[a,b)` are at most `b-a` many. -/
theorem nodup_length_le (l : List Int) (h : l.Nodup) (a b : Int) (hab : ∀ x ∈ l, a ≤ x ∧ x < b) :
    l.length ≤ (b - a).toNat := by
  classical
  have h1 : l.toFinset ⊆ Finset.Ico a b := by
    intro x hx
    rw [List.mem_toFinset] at hx
    exact Finset.mem_Ico.mpr (hab x hx)
  have h2 := Finset.card_le_card h1
  rw [List.toFinset_card_of_nodup h, Int.card_Ico] at h2
  exact h2

/-- Distinct integers filling `[m,m+n)`: exactly `t` of them lie below `m+t`. -/
theorem below_contig (G : List Int) (h : G.Nodup) (m : Int) (hab : ∀ x ∈ G, m ≤ x ∧ x < m + G.length)
    (t : Nat) (ht : t ≤ G.length) : below G (m + t) = t := by
  have h1 := nodup_length_le (G.filter (fun x => decide (x < m + t))) (h.filter _) m (m + t) (by
    intro x hx
    rw [List.mem_filter] at hx
    exact ⟨(hab x hx.1).1, by simpa using hx.2⟩)
  have h2 := nodup_length_le (G.filter (fun x => !decide (x < m + t))) (h.filter _) (m + t) (m + G.length) (by
    intro x hx
    rw [List.mem_filter] at hx
    exact ⟨by simpa using hx.2, (hab x hx.1).2⟩)
  have h3 := List.length_eq_countP_add_countP (l := G) (fun x => decide (x < m + t))
  have h4 : G.countP (fun x => decide ¬ (decide (x < m + t)) = true) = (G.filter (fun x => !decide (x < m + t))).length := by
    rw [List.countP_eq_length_filter]; congr 2; funext x; rw [Bool.eq_iff_iff]; simp
  rw [h4] at h3
  have h5 : below G (m + t) = (G.filter (fun x => decide (x < m + t))).length := by
    unfold below; rw [List.countP_eq_length_filter]
  rw [h5]
  have h6 : G.countP (fun x => decide (x < m + t)) = (G.filter (fun x => decide (x < m + t))).length :=
    List.countP_eq_length_filter
  omega

theorem below_flatten {P : Nat} (ids : Fin P → List Int) (T : Int) :
    below (List.ofFn ids).flatten T = ∑ r, below (ids r) T := by
  unfold below
  rw [List.countP_flatten, List.map_ofFn, List.sum_ofFn]; rfl

/-- Position of a threshold relative to an entry of an ascending list. -/
theorem below_le_iff (l : List Int) (hs : l.Pairwise (· ≤ ·)) (T : Int) (i : Nat) (hi : i < l.length) :
    below l T ≤ i ↔ T ≤ l[i] := by
  obtain ⟨h1, h2⟩ := below_take l T hs
  constructor
  · intro h
    apply h2
    rw [List.mem_iff_getElem]
    exact ⟨i - below l T, by simp; omega, by simp [Nat.add_sub_cancel' h]⟩
  · intro h
    by_contra hc
    have : l[i] ∈ l.take (below l T) := by
      rw [List.mem_iff_getElem]
      exact ⟨i, by simp; omega, by simp⟩
    have := h1 _ this
    omega

theorem below_at (l : List Int) (hs : l.Pairwise (· < ·)) (i : Nat) (hi : i < l.length) :
    below l (l[i] + 1) = i + 1 := by
  have hs' : l.Pairwise (· ≤ ·) := hs.imp (fun h => le_of_lt h)
  have h1 : ¬ below l (l[i] + 1) ≤ i := by
    rw [below_le_iff l hs' _ i hi]; omega
  by_cases h2 : i + 1 < l.length
  · have h3 := (below_le_iff l hs' (l[i]+1) (i+1) h2).mpr (by
      have := List.pairwise_iff_getElem.mp hs i (i+1) hi h2 (by omega)
      omega)
    omega
  · have := below_le l (l[i]+1)
    omega

/-! ## `IsContiguousId` -/

theorem foldl_min_spec (l : List Int) (a : Int) :
    l.foldl min a ∈ a :: l ∧ ∀ x ∈ a :: l, l.foldl min a ≤ x := by
  induction l generalizing a with
  | nil => simp
  | cons b l ih =>
    obtain ⟨h1, h2⟩ := ih (min a b)
    simp only [List.foldl_cons]
    refine ⟨?_, ?_⟩
    · rcases List.mem_cons.mp h1 with h | h
      · rw [h]; rcases min_choice a b with h' | h' <;> rw [h'] <;> simp
      · simp [h]
    · intro x hx
      have h3 := h2 (min a b) (by simp)
      rcases List.mem_cons.mp hx with rfl | hx
      · exact le_trans h3 (min_le_left _ _)
      · rcases List.mem_cons.mp hx with rfl | hx
        · exact le_trans h3 (min_le_right _ _)
        · exact h2 x (by simp [hx])

theorem foldl_max_spec (l : List Int) (a : Int) :
    l.foldl max a ∈ a :: l ∧ ∀ x ∈ a :: l, x ≤ l.foldl max a := by
  induction l generalizing a with
  | nil => simp
  | cons b l ih =>
    obtain ⟨h1, h2⟩ := ih (max a b)
    simp only [List.foldl_cons]
    refine ⟨?_, ?_⟩
    · rcases List.mem_cons.mp h1 with h | h
      · rw [h]; rcases max_choice a b with h' | h' <;> rw [h'] <;> simp
      · simp [h]
    · intro x hx
      have h3 := h2 (max a b) (by simp)
      rcases List.mem_cons.mp hx with rfl | hx
      · exact le_trans (le_max_left _ _) h3
      · rcases List.mem_cons.mp hx with rfl | hx
        · exact le_trans (le_max_right _ _) h3
        · exact h2 x (by simp [hx])

theorem int_lor_zero (a : Int) : Int.lor a 0 = a := by
  cases a <;> simp [Int.lor, Nat.ldiff]

theorem int_zero_lor (a : Int) : Int.lor 0 a = a := by
  cases a <;> simp [Int.lor, Nat.ldiff]

theorem foldl_or_single {β : Type} (l : List β) (f : β → Bool) (r : β) (hr : r ∈ l)
    (h0 : ∀ s ∈ l, s ≠ r → f s = false) (a : Bool) :
    (l.map f).foldl (fun a b => a || b) a = (a || f r) := by
  classical
  have gen : ∀ (l : List Bool) (a : Bool), l.foldl (fun a b => a || b) a = (a || l.any id) := by
    intro l
    induction l with
    | nil => simp
    | cons b l ih => intro a; simp [ih, Bool.or_assoc]
  rw [gen]
  congr 1
  rw [Bool.eq_iff_iff]
  simp only [List.any_eq_true, List.mem_map, id]
  constructor
  · rintro ⟨x, ⟨s, hs, rfl⟩, h⟩
    by_cases e : s = r
    · rw [← e]; exact h
    · rw [h0 s hs e] at h; cases h
  · intro h; exact ⟨_, ⟨r, hr, rfl⟩, h⟩

theorem foldl_lor_single {β : Type} [DecidableEq β] (l : List β) (f : β → Int) (r : β) (hr : r ∈ l) (hd : l.Nodup)
    (h0 : ∀ s ∈ l, s ≠ r → f s = 0) : (l.map f).foldl Int.lor 0 = f r := by
  have gen : ∀ (l : List β) (a : Int), (∀ s ∈ l, f s = 0) → (l.map f).foldl Int.lor a = a := by
    intro l
    induction l with
    | nil => simp
    | cons b l ih =>
      intro a h
      rw [List.map_cons, List.foldl_cons, h b (by simp), int_lor_zero]
      exact ih a (fun s hs => h s (by simp [hs]))
  induction l with
  | nil => simp at hr
  | cons b l ih =>
    rw [List.map_cons, List.foldl_cons, int_zero_lor]
    rw [List.nodup_cons] at hd
    by_cases e : b = r
    · subst e
      exact gen l _ (fun s hs => h0 s (by simp [hs]) (fun e => hd.1 (e ▸ hs)))
    · rw [h0 b (by simp) e]
      exact ih (by simpa [Ne.symm e] using hr) hd.2 (fun s hs => h0 s (by simp [hs]))

theorem isContiguousId_ok {P : Nat} (n : Nat) (ids : Fin P → List Int)
    (hs : ∀ r, (ids r).Pairwise (· ≤ ·)) (hne : (List.ofFn ids).flatten ≠ []) :
    ∃ m M, m ∈ (List.ofFn ids).flatten ∧ M ∈ (List.ofFn ids).flatten ∧
      (∀ x ∈ (List.ofFn ids).flatten, m ≤ x ∧ x ≤ M) ∧
      isContiguousId n ids = fun _ => (decide (M - m + 1 = n), m) := by
  have hmem : ∀ x, x ∈ (List.ofFn ids).flatten ↔ ∃ r, x ∈ ids r := by
    intro x
    rw [List.mem_flatten]
    constructor
    · rintro ⟨l, hl, hx⟩
      obtain ⟨r, rfl⟩ := List.mem_ofFn.mp hl
      exact ⟨r, hx⟩
    · rintro ⟨r, hx⟩; exact ⟨ids r, List.mem_ofFn.mpr ⟨r, rfl⟩, hx⟩
  obtain ⟨x0, hx0⟩ := List.exists_mem_of_ne_nil _ hne
  obtain ⟨r0, hr0⟩ := (hmem x0).mp hx0
  cases hf : (List.finRange P).find? (fun s => !(ids s).isEmpty) with
  | none =>
    have := List.find?_eq_none.mp hf r0 (List.mem_finRange r0)
    simp at this
    rw [this] at hr0; simp at hr0
  | some root =>
    have hroot := List.find?_some hf
    cases hi : ids root with
    | nil => simp [hi] at hroot
    | cons a l =>
      have hlocal : contigLocal n ids root
          = (decide (reduceMax ids ((a :: l).getLast (by simp)) - reduceMin ids a + 1 = n), reduceMin ids a) := by
        unfold contigLocal
        split
        · rename_i h; rw [hi] at h; cases h
        · rename_i a' l' h
          rw [hi] at h
          cases h
          rw [if_pos hf]
      have hother : ∀ s, s ≠ root → contigLocal n ids s = (false, 0) := by
        intro s hsr
        unfold contigLocal
        split
        · rfl
        · rw [if_neg]
          rw [hf]
          intro h; cases h; exact hsr rfl
      refine ⟨reduceMin ids a, reduceMax ids ((a :: l).getLast (by simp)), ?_, ?_, ?_, ?_⟩
      · have := (foldl_min_spec ((List.finRange P).filterMap (fun r => (ids r).head?)) a).1
        rcases List.mem_cons.mp this with h | h
        · unfold reduceMin; rw [h, hmem]; exact ⟨root, by rw [hi]; simp⟩
        · obtain ⟨r, _, hr⟩ := List.mem_filterMap.mp h
          rw [hmem]; exact ⟨r, List.mem_of_head? hr⟩
      · have := (foldl_max_spec ((List.finRange P).filterMap (fun r => (ids r).getLast?)) ((a :: l).getLast (by simp))).1
        rcases List.mem_cons.mp this with h | h
        · unfold reduceMax; rw [h, hmem]; exact ⟨root, by rw [hi]; exact List.getLast_mem _⟩
        · obtain ⟨r, _, hr⟩ := List.mem_filterMap.mp h
          rw [hmem]; exact ⟨r, List.mem_of_getLast? hr⟩
      · intro x hx
        obtain ⟨r, hr⟩ := (hmem x).mp hx
        have hsr := hs r
        constructor
        · cases e : ids r with
          | nil => rw [e] at hr; simp at hr
          | cons b t =>
            have h1 : reduceMin ids a ≤ b := by
              apply (foldl_min_spec _ a).2
              exact List.mem_cons_of_mem _ (List.mem_filterMap.mpr ⟨r, List.mem_finRange r, by rw [e]; rfl⟩)
            rw [e] at hr hsr
            rcases List.mem_cons.mp hr with rfl | hr
            · exact h1
            · exact le_trans h1 ((List.pairwise_cons.mp hsr).1 x hr)
        · have hne : ids r ≠ [] := by intro h; rw [h] at hr; simp at hr
          have h1 : (ids r).getLast hne ≤ reduceMax ids ((a :: l).getLast (by simp)) := by
            apply (foldl_max_spec _ _).2
            exact List.mem_cons_of_mem _ (List.mem_filterMap.mpr ⟨r, List.mem_finRange r,
              List.getLast?_eq_some_getLast hne⟩)
          refine le_trans ?_ h1
          obtain ⟨i, hi', rfl⟩ := List.mem_iff_getElem.mp hr
          rw [List.getLast_eq_getElem]
          exact get_mono hsr (by omega) (by omega)
      · unfold isContiguousId
        funext r
        simp only [List.map_map]
        rw [foldl_or_single (List.finRange P) (Prod.fst ∘ contigLocal n ids) root (List.mem_finRange _)
          (by intro s _ hne; simp [hother s hne]),
          foldl_lor_single (List.finRange P) (Prod.snd ∘ contigLocal n ids) root (List.mem_finRange _)
          (List.nodup_finRange P) (by intro s _ hne; simp [hother s hne])]
        simp [hlocal]

/-! ## `ParallelStride` -/

theorem fastForward_ok (minId : Int) : ∀ (l : List Int), l.Pairwise (· ≤ ·) → (∃ x ∈ l, minId ≤ x) →
    fastForward minId l = .ok (below l minId)
  | [], _, h => by simp at h
  | a :: l, hs, h => by
    rw [fastForward]
    have hsl := List.pairwise_cons.mp hs
    by_cases ha : a < minId
    · rw [if_pos ha, fastForward_ok minId l hsl.2 (by
        obtain ⟨x, hx, hx2⟩ := h
        rcases List.mem_cons.mp hx with rfl | hx
        · omega
        · exact ⟨x, hx, hx2⟩), Outcome.bind_ok]
      unfold below
      rw [List.countP_cons_of_pos (by simpa using ha)]
    · rw [if_neg ha]
      congr 1
      symm
      unfold below
      rw [List.countP_eq_zero]
      intro x hx
      rcases List.mem_cons.mp hx with rfl | hx
      · simpa using ha
      · have := hsl.1 x hx; simp; omega

theorem below_drop (l : List Int) (hs : l.Pairwise (· ≤ ·)) {T b : Int} (h : T ≤ b) :
    below (l.drop (below l T)) b + below l T = below l b := by
  have h1 := (below_take l T hs).1
  have : below l b = below (l.take (below l T)) b + below (l.drop (below l T)) b := by
    unfold below
    rw [← List.countP_append, List.take_append_drop]
  rw [this, below_all (l.take (below l T)) b (fun x hx => by have := h1 x hx; omega), List.length_take]
  have := below_le l T
  omega

theorem ceil_bound (steps k : Nat) (hk : 0 < k) (hs : 0 < steps) :
    1 ≤ (if steps / k * k < steps then steps / k + 1 else steps / k) ∧
    k * ((if steps / k * k < steps then steps / k + 1 else steps / k) - 1) + 1 ≤ steps := by
  have h1 := Nat.div_add_mod steps k
  have h2 := Nat.mod_lt steps hk
  rw [Nat.mul_comm] at h1
  generalize steps / k = q at *
  split
  · refine ⟨by omega, ?_⟩
    rw [Nat.add_sub_cancel, Nat.mul_comm]; omega
  · have hq : q ≠ 0 := by rintro rfl; omega
    obtain ⟨q', rfl⟩ := Nat.exists_eq_succ_of_ne_zero hq
    refine ⟨by omega, ?_⟩
    rw [Nat.succ_sub_one, Nat.mul_comm]
    rw [Nat.succ_mul] at *
    omega

theorem strideStep_ok {P : Nat} (ids : Fin P → List Int) (hs : ∀ r, (ids r).Pairwise (· < ·))
    (hdis : ∀ r s, r ≠ s → ∀ x ∈ ids r, x ∉ ids s) (T : Int) (steps : Nat) (hsteps : 0 < steps)
    (off : Fin P → Nat) (hoff : ∀ r, off r = below (ids r) T) (hleft : ∃ r, off r < (ids r).length) :
    ∃ (T' : Int) (inc : Fin P → Nat), strideStep ids steps off = .ok inc ∧ T ≤ T' ∧
      (∀ r, off r + inc r = below (ids r) T') ∧ 1 ≤ ∑ r, inc r ∧ ∑ r, inc r ≤ steps := by
  have hs' : ∀ r, (ids r).Pairwise (· ≤ ·) := fun r => (hs r).imp (fun h => le_of_lt h)
  set act : Fin P → Bool := fun r => decide ((ids r).length - off r ≠ 0) with hact
  set k := ((List.finRange P).filter act).length with hk
  have hk0 : 0 < k := by
    obtain ⟨r, hr⟩ := hleft
    rw [hk, List.length_pos_iff_exists_mem]
    exact ⟨r, List.mem_filter.mpr ⟨List.mem_finRange r, by simp [hact]; omega⟩⟩
  set n0 := (if steps / k * k < steps then steps / k + 1 else steps / k) with hn0
  obtain ⟨hn1, hnk⟩ := ceil_bound steps k hk0 hsteps
  rw [← hn0] at hn1 hnk
  set n : Fin P → Nat := fun r => min n0 ((ids r).length - off r) with hn
  have hidx : ∀ r, act r = true → 1 ≤ n r ∧ n r ≤ n0 ∧ off r + n r - 1 < (ids r).length := by
    intro r hr
    have : (ids r).length - off r ≠ 0 := by simpa [hact] using hr
    simp only [hn]
    omega
  let pid : Fin P → Int := fun r => if h : act r = true then (ids r)[off r + n r - 1]'(hidx r h).2.2 else 0
  have htrial : ∀ r, stridePid k steps (ids r) (off r)
      = .ok (if act r = true then some (n r, pid r) else none) := by
    intro r
    unfold stridePid
    simp only
    by_cases hr : act r = true
    · have h0 : (ids r).length - off r ≠ 0 := by simpa [hact] using hr
      obtain ⟨g1, g2, g3⟩ := hidx r hr
      rw [if_neg h0, if_neg (by omega), if_pos hr]
      have e : (if (if steps / k * k < steps then steps / k + 1 else steps / k) > (ids r).length - off r
          then (ids r).length - off r else (if steps / k * k < steps then steps / k + 1 else steps / k)) = n r := by
        rw [← hn0]; simp only [hn]
        split <;> omega
      rw [e, if_neg (by omega), Outcome.get_of_lt g3, Outcome.bind_ok]
      simp only [pid, dif_pos hr]
    · have h0 : (ids r).length - off r = 0 := by simpa [hact] using hr
      rw [if_pos h0, if_neg hr]
  set pids := (List.finRange P).filterMap
    (fun r => ((if act r = true then some (n r, pid r) else none : Option (Nat × Int))).map Prod.snd) with hpids
  have hpmem : ∀ x, x ∈ pids ↔ ∃ r, act r = true ∧ pid r = x := by
    intro x
    rw [hpids, List.mem_filterMap]
    constructor
    · rintro ⟨r, _, h⟩
      split at h
      · rename_i hr; simp at h; exact ⟨r, hr, h⟩
      · simp at h
    · rintro ⟨r, hr, rfl⟩
      exact ⟨r, List.mem_finRange r, by simp [hr]⟩
  have hmin : minOfPids pids ∈ pids ∧ ∀ x ∈ pids, minOfPids pids ≤ x := by
    obtain ⟨r, hr⟩ := hleft
    have hx : pid r ∈ pids := (hpmem _).mpr ⟨r, by simp [hact]; omega, rfl⟩
    cases hp : pids with
    | nil => rw [hp] at hx; simp at hx
    | cons a l => exact foldl_min_spec l a
  set mn := minOfPids pids with hmn
  obtain ⟨r0, hr0, hpr0⟩ := (hpmem _).mp hmin.1
  have hTmn : T ≤ mn := by
    rw [← hpr0]
    simp only [pid, dif_pos hr0]
    rw [← below_le_iff (ids r0) (hs' r0) T _ (hidx r0 hr0).2.2, ← hoff r0]
    have := (hidx r0 hr0).1; omega
  have hr0mem : mn ∈ ids r0 := by
    rw [← hpr0]; simp only [pid, dif_pos hr0]; exact List.getElem_mem _
  -- the increments
  have hadv : ∀ r, strideAdvance mn (ids r) (off r) (if act r = true then some (n r, pid r) else none)
      = .ok (below (ids r) (mn + 1) - off r) ∧ off r ≤ below (ids r) (mn + 1) ∧
        below (ids r) (mn + 1) - off r ≤ (if act r = true then n0 - 1 else 0) + (if r = r0 then 1 else 0) ∧
        (r = r0 → 1 ≤ below (ids r) (mn + 1) - off r) := by
    intro r
    have hmono : off r ≤ below (ids r) (mn + 1) := by
      rw [hoff r]; exact below_mono _ (by omega)
    by_cases hr : act r = true
    · rw [if_pos hr, if_pos hr]
      obtain ⟨g1, g2, g3⟩ := hidx r hr
      have hpr : pid r = (ids r)[off r + n r - 1]'g3 := by simp only [pid, dif_pos hr]
      have hge := hmin.2 _ ((hpmem _).mpr ⟨r, hr, rfl⟩)
      unfold strideAdvance
      simp only
      by_cases hgt : pid r > mn
      · rw [if_pos hgt]
        have hne : r ≠ r0 := by rintro rfl; omega
        have hle := (below_le_iff (ids r) (hs' r) (mn + 1) _ g3).mpr (by rw [← hpr]; omega)
        have heq : below (ids r) (mn + 1) = below (ids r) mn := by
          unfold below
          apply List.countP_congr
          intro x hx
          have : x ≠ mn := by rintro rfl; exact hdis r r0 hne _ hx hr0mem
          simp; omega
        refine ⟨?_, hmono, by rw [if_neg hne]; omega, fun h => absurd h hne⟩
        rw [fastForward_ok mn _ ((hs' r).sublist (List.drop_sublist _ _)) ⟨pid r, ?_, by omega⟩]
        · congr 1
          have := below_drop (ids r) (hs' r) (T := T) (b := mn) (by omega)
          rw [← hoff r] at this
          omega
        · rw [hpr, List.mem_iff_getElem]
          exact ⟨n r - 1, by simp; omega, by simp; congr 1; omega⟩
      · rw [if_neg hgt]
        have hpe : pid r = mn := by omega
        have hre : r = r0 := by
          by_contra hne
          exact hdis r r0 hne mn (by rw [← hpe, hpr]; exact List.getElem_mem _) hr0mem
        have hb := below_at (ids r) (hs r) _ g3
        rw [← hpr, hpe] at hb
        refine ⟨by congr 1; omega, hmono, by rw [if_pos hre]; omega, fun _ => by omega⟩
    · have h0 : (ids r).length - off r = 0 := by simpa [hact] using hr
      have hle := below_le (ids r) (mn + 1)
      rw [if_neg hr, if_neg hr]
      refine ⟨?_, hmono, by omega, fun h => absurd (h ▸ hr0) hr⟩
      unfold strideAdvance
      simp only
      congr 1; omega
  refine ⟨mn + 1, fun r => below (ids r) (mn + 1) - off r, ?_, by omega, ?_, ?_, ?_⟩
  · unfold strideStep
    simp only
    rw [← hact, ← hk, allRanks_ok _ _ htrial, Outcome.bind_ok]
    exact allRanks_ok _ _ (fun r => (hadv r).1)
  · intro r; have := (hadv r).2.1; show off r + (_ - off r) = _; omega
  · exact le_trans ((hadv r0).2.2.2 rfl)
      (Finset.single_le_sum (f := fun r => below (ids r) (mn + 1) - off r) (fun _ _ => Nat.zero_le _) (Finset.mem_univ r0))
  · refine le_trans (Finset.sum_le_sum (fun r _ => (hadv r).2.2.1)) ?_
    rw [Finset.sum_add_distrib, Finset.sum_ite_eq' Finset.univ r0 (fun _ => 1), if_pos (Finset.mem_univ _),
      ← Finset.sum_filter, Finset.sum_const, smul_eq_mul]
    have hcard : (Finset.univ.filter (fun r => act r = true)).card = k := by
      rw [hk]
      have : (Finset.univ.filter (fun r => act r = true)) = ((List.finRange P).filter act).toFinset := by
        ext r; simp
      rw [this, List.toFinset_card_of_nodup ((List.nodup_finRange P).filter _)]
    rw [hcard]
    exact hnk

theorem parallelStride_ok {P : Nat} (ids : Fin P → List Int) (hs : ∀ r, (ids r).Pairwise (· < ·))
    (hdis : ∀ r s, r ≠ s → ∀ x ∈ ids r, x ∉ ids s) :
    ∀ (fuel steps : Nat) (T : Int) (off : Fin P → Nat), steps < fuel →
    (∀ r, off r = below (ids r) T) → ∑ r, off r + steps ≤ ∑ r, (ids r).length →
    ∃ (T' : Int) (off' : Fin P → Nat), parallelStride ids fuel steps off = .ok off' ∧ T ≤ T' ∧
      (∀ r, off' r = below (ids r) T') ∧ ∑ r, off' r = ∑ r, off r + steps := by
  intro fuel
  induction fuel with
  | zero => intro steps T off h; omega
  | succ fuel ih =>
    intro steps T off hf hoff hsum
    rw [parallelStride]
    by_cases h0 : steps = 0
    · rw [if_pos h0]
      exact ⟨T, off, rfl, le_refl _, hoff, by omega⟩
    · rw [if_neg h0]
      have hleft : ∃ r, off r < (ids r).length := by
        by_contra hcon
        push Not at hcon
        have := Finset.sum_le_sum (fun r (_ : r ∈ Finset.univ) => hcon r)
        omega
      obtain ⟨T1, inc, e, hT, hb, h1, h2⟩ := strideStep_ok ids hs hdis T steps (by omega) off hoff hleft
      rw [e, Outcome.bind_ok]
      simp only [List.sum_ofFn]
      rw [if_pos h2]
      obtain ⟨T', off', e', hT', hb', hs'⟩ := ih (steps - ∑ r, inc r) T1 (fun r => off r + inc r) (by omega) hb
        (by rw [Finset.sum_add_distrib]; omega)
      refine ⟨T', off', e', by omega, hb', ?_⟩
      rw [hs', Finset.sum_add_distrib]; omega

/-! ## `PartitionParticles` -/

/-- Number of particles that belong before rank `i`: an even split, the first `N%P` ranks get one more. -/
def tgt (N P i : Nat) : Nat := i * (N / P) + min i (N % P)

/-- The share of rank `i`. -/
def share (N P i : Nat) : Nat := N / P + if i < N % P then 1 else 0

theorem tgt_succ (N P i : Nat) : tgt N P (i+1) = tgt N P i + share N P i := by
  unfold tgt share
  rw [Nat.succ_mul]
  split <;> omega

theorem tgt_last (N P : Nat) (hP : 0 < P) : tgt N P P = N := by
  unfold tgt
  have := Nat.mod_lt N hP
  have := Nat.div_add_mod N P
  rw [Nat.min_eq_right (by omega)]
  exact this

theorem tgt_mono (N P : Nat) {i j : Nat} (h : i ≤ j) : tgt N P i ≤ tgt N P j := by
  unfold tgt
  have := Nat.mul_le_mul_right (N / P) h
  omega

theorem nnew_step (N P i : Nat) : (if i = N % P then (if i ≤ N % P then N / P + 1 else N / P) - 1
    else (if i ≤ N % P then N / P + 1 else N / P)) = share N P i ∧
    share N P i = (if i + 1 ≤ N % P then N / P + 1 else N / P) := by
  unfold share
  generalize N / P = q
  generalize N % P = w
  constructor <;> split_ifs <;> omega

theorem strideRanks_ok {P : Nat} (N : Nat) (ids : Fin P → List Int) (hs : ∀ r, (ids r).Pairwise (· < ·))
    (hdis : ∀ r s, r ≠ s → ∀ x ∈ ids r, x ∉ ids s) (hN : ∑ r, (ids r).length = N) :
    ∀ (left i : Nat) (T : Int) (off : Fin P → Nat), i + left = P →
    (∀ r, off r = below (ids r) T) → ∑ r, off r = tgt N P i →
    ∃ c : Nat → Int, c i = T ∧ (∀ j, c j ≤ c (j+1)) ∧
      (∀ j, i ≤ j → j ≤ P → ∑ r, below (ids r) (c j) = tgt N P j) ∧
      strideRanks ids (N % P) left i (if i ≤ N % P then N / P + 1 else N / P) off
        = .ok (fun r => (List.range' i left).map (fun j => below (ids r) (c j)),
            fun r => below (ids r) (c P)) := by
  intro left
  induction left with
  | zero =>
    intro i T off hi hoff hsum
    refine ⟨fun _ => T, rfl, fun _ => le_refl _, ?_, ?_⟩
    · intro j h1 h2
      have : j = i := by omega
      subst this
      rw [← hsum]; exact Finset.sum_congr rfl (fun r _ => (hoff r).symm)
    · rw [strideRanks]
      simp only [List.range'_zero, List.map_nil]
      congr 2
      funext r; exact hoff r
  | succ left ih =>
    intro i T off hi hoff hsum
    rw [strideRanks]
    simp only
    rw [(nnew_step N P i).1]
    have hP : 0 < P := by omega
    have hle : ∑ r, off r + share N P i ≤ ∑ r, (ids r).length := by
      rw [hsum, hN, ← tgt_succ]
      conv_rhs => rw [← tgt_last N P hP]
      exact tgt_mono N P (by omega)
    obtain ⟨T1, off', e, hT, hb, hs1⟩ := parallelStride_ok ids hs hdis (share N P i + 1) (share N P i) T off
      (by omega) hoff hle
    rw [e, Outcome.bind_ok]
    obtain ⟨c, hc0, hcm, hct, hce⟩ := ih (i+1) T1 off' (by omega) hb (by rw [hs1, hsum, tgt_succ])
    rw [(nnew_step N P i).2, hce, Outcome.bind_ok]
    refine ⟨fun j => if j ≤ i then T else c j, by simp, ?_, ?_, ?_⟩
    · intro j
      by_cases h1 : j + 1 ≤ i
      · simp [h1, show j ≤ i by omega]
      · by_cases h2 : j ≤ i
        · have : j = i := by omega
          subst this
          simp only [Nat.le_refl, if_true, if_neg h1, hc0]; exact hT
        · simp only [if_neg h1, if_neg h2]; exact hcm j
    · intro j h1 h2
      by_cases h3 : j ≤ i
      · have : j = i := by omega
        subst this
        simp only [Nat.le_refl, if_true]
        rw [← hsum]; exact Finset.sum_congr rfl (fun r _ => (hoff r).symm)
      · simp only [if_neg h3]; exact hct j (by omega) h2
    · simp only
      congr 2
      · funext r
        rw [List.range'_succ, List.map_cons]
        congr 1
        · simp [hoff r]
        · apply List.map_congr_left
          intro j hj
          rw [List.mem_range'] at hj
          obtain ⟨d, hd, rfl⟩ := hj
          rw [if_neg (by omega)]
      · funext r; rw [if_neg (by omega)]

theorem contigLoop_ok (N P : Nat) (hP : 0 < P) (m : Int) :
    ∀ (fuel : Nat) (rest pre : List Int) (k : Nat), (pre ++ rest).Pairwise (· ≤ ·) →
    (∀ x ∈ pre ++ rest, x < m + N) → k ≤ P → rest.length + (P - k) < fuel →
    (∀ x ∈ pre, x < m + tgt N P k) →
    contigLoop P (N % P) fuel rest pre.length
      ((List.range' 0 k).map (fun j => below (pre ++ rest) (m + tgt N P j)))
      (if k ≤ N % P then N / P + 1 else N / P) (m + tgt N P k)
      = .ok ((List.range' 0 P).map (fun j => below (pre ++ rest) (m + tgt N P j))) := by
  intro fuel
  induction fuel with
  | zero => intro rest pre k _ _ _ h; omega
  | succ fuel ih =>
    intro rest pre k hs hall hk hf hpre
    cases rest with
    | nil =>
      rw [contigLoop]
      congr 1
      rw [show P = k + (P - k) by omega, ← List.range'_append_1, List.map_append, List.length_map, List.length_range',
        show k + (P - k) = P by omega]
      congr 1
      · symm
        rw [List.eq_replicate_iff]
        refine ⟨by simp, ?_⟩
        intro b hb
        obtain ⟨j, hj, rfl⟩ := List.mem_map.mp hb
        rw [List.mem_range'] at hj
        obtain ⟨d, hd, rfl⟩ := hj
        rw [List.append_nil, below_all]
        intro x hx
        have h1 := hpre x hx
        have h2 := tgt_mono N P (show k ≤ 0 + k + 1 * d by omega)
        omega
    | cons id rest =>
      rw [contigLoop]
      by_cases hlt : id < m + tgt N P k
      · rw [if_pos hlt]
        have := ih rest (pre ++ [id]) k (by simpa using hs) (by simpa using hall) hk
          (by simp only [List.length_cons] at hf; omega) (by
            intro x hx
            rcases List.mem_append.mp hx with hx | hx
            · exact hpre x hx
            · simp at hx; omega)
        simpa using this
      · rw [if_neg hlt]
        have hkP : k < P := by
          by_contra hcon
          have : k = P := by omega
          subst this
          rw [tgt_last N k hP] at hlt
          exact hlt (hall id (by simp))
        rw [if_neg (by simp; omega)]
        simp only [List.length_map, List.length_range']
        rw [(nnew_step N P k).1]
        have hpid : pre.length = below (pre ++ id :: rest) (m + tgt N P k) := by
          rw [below_split _ _ _ hpre]
          intro x hx
          have := List.pairwise_append.mp hs
          rcases List.mem_cons.mp hx with rfl | hx
          · omega
          · have := (List.pairwise_cons.mp this.2.1).1 x hx; omega
        have hih := ih (id :: rest) pre (k+1) hs hall (by omega) (by omega)
          (by intro x hx; have h1 := hpre x hx; have := tgt_mono N P (show k ≤ k+1 by omega); omega)
        rw [List.range'_1_concat, List.map_append] at hih
        simp only [List.map_cons, List.map_nil, Nat.zero_add] at hih
        rw [← hpid, ← (nnew_step N P k).2, tgt_succ] at hih
        rw [← hih]
        congr 1
        push_cast; omega

/-- The positions of an ascending list of particles below the thresholds. -/
theorem partitionParticles_ok {P : Nat} (hP : 0 < P) (N : Nat) (ids : Fin P → List Int)
    (hs : ∀ r, (ids r).Pairwise (· < ·)) (hd : (List.ofFn ids).flatten.Nodup)
    (hN : ∑ r, (ids r).length = N) (hN0 : 0 < N) :
    ∃ c : Nat → Int, (∀ j, c j ≤ c (j+1)) ∧
      (∀ j, j ≤ P → ∑ r, below (ids r) (c j) = tgt N P j) ∧
      partitionParticles N ids = .ok (fun r => (List.range' 0 P).map (fun j => below (ids r) (c j))) := by
  have hs' : ∀ r, (ids r).Pairwise (· ≤ ·) := fun r => (hs r).imp (fun h => le_of_lt h)
  have hlen : (List.ofFn ids).flatten.length = N := by
    rw [List.length_flatten, List.map_ofFn, List.sum_ofFn, ← hN]; rfl
  have hmem : ∀ r, ∀ x ∈ ids r, x ∈ (List.ofFn ids).flatten := by
    intro r x hx
    exact List.mem_flatten.mpr ⟨ids r, List.mem_ofFn.mpr ⟨r, rfl⟩, hx⟩
  have hdis : ∀ r s, r ≠ s → ∀ x ∈ ids r, x ∉ ids s := by
    have h1 := (List.nodup_flatten.mp hd).2
    rw [List.pairwise_ofFn] at h1
    intro r s hrs x hx hx2
    rcases lt_or_gt_of_ne hrs with h | h
    · exact h1 h hx hx2
    · exact h1 h hx2 hx
  obtain ⟨m, M, hm, hM, hmM, e⟩ := isContiguousId_ok N ids hs' (by
    intro h; rw [h] at hlen; simp at hlen; omega)
  unfold partitionParticles
  rw [if_neg (by omega)]
  simp only [e]
  by_cases hc : M - m + 1 = N
  · rw [if_pos (fun _ => by simpa using hc)]
    refine ⟨fun j => m + tgt N P j, ?_, ?_, ?_⟩
    · intro j; have := tgt_mono N P (show j ≤ j+1 by omega); simp only; omega
    · intro j hj
      have hle : tgt N P j ≤ N := by
        conv_rhs => rw [← tgt_last N P hP]
        exact tgt_mono N P hj
      rw [← below_flatten]
      exact below_contig _ hd m (fun x hx => by have := hmM x hx; rw [hlen]; omega) _ (by omega)
    · apply allRanks_ok
      intro r
      have := contigLoop_ok N P hP m ((ids r).length + P + 2) (ids r) [] 0 (by simpa using hs' r)
        (by intro x hx; have := hmM x (hmem r x (by simpa using hx)); omega) (by omega) (by omega) (by simp)
      simpa [tgt] using this
  · have hP' : ¬ ∀ _ : Fin P, decide (M - m + 1 = (N:Int)) = true := by
      intro h; exact hc (by simpa using h ⟨0, hP⟩)
    rw [if_neg hP', if_pos (fun _ => by simpa using hc)]
    have hb0 : ∀ r, 0 = below (ids r) m := by
      intro r
      symm
      unfold below
      rw [List.countP_eq_zero]
      intro x hx
      have := hmM x (hmem r x hx)
      simp; omega
    obtain ⟨c, hc0, hcm, hct, hce⟩ := strideRanks_ok N ids hs hdis hN P 0 m (fun _ => 0) (by omega) hb0
      (by simp [tgt])
    simp only [Nat.zero_le, if_true] at hce
    rw [hce, Outcome.bind_ok]
    refine ⟨c, hcm, fun j hj => hct j (Nat.zero_le _) hj, ?_⟩
    have hfin : ∀ r, below (ids r) (c P) = (ids r).length := by
      have h1 := hct P (Nat.zero_le _) (Nat.le_refl _)
      rw [tgt_last N P hP, ← hN] at h1
      intro r
      exact (Finset.sum_eq_sum_iff_of_le (fun r _ => below_le (ids r) (c P))).mp h1 r (Finset.mem_univ r)
    simp only
    rw [allRanks_ok _ (fun _ => ()) (by intro r; rw [hfin r]; simp), Outcome.bind_ok]

theorem coe_flatten {β : Type} : ∀ {P : Nat} (f : Fin P → List β),
    (((List.ofFn f).flatten : List β) : Multiset β) = ∑ i, (f i : Multiset β)
  | 0, f => by simp
  | P + 1, f => by
    rw [List.ofFn_succ, List.flatten_cons, ← Multiset.coe_add, coe_flatten, Fin.sum_univ_succ]

/-- Concatenation by rows or by columns gives the same elements. -/
theorem flatten_swap {β : Type} {P Q : Nat} (f : Fin P → Fin Q → List β) :
    (List.ofFn (fun i => (List.ofFn (f i)).flatten)).flatten.Perm
      (List.ofFn (fun j => (List.ofFn (fun i => f i j)).flatten)).flatten := by
  rw [← Multiset.coe_eq_coe, coe_flatten, coe_flatten]
  simp only [coe_flatten]
  exact Finset.sum_comm

theorem flatten_perm {β : Type} {P : Nat} (f g : Fin P → List β) (h : ∀ r, (f r).Perm (g r)) :
    (List.ofFn f).flatten.Perm (List.ofFn g).flatten := by
  rw [← Multiset.coe_eq_coe, coe_flatten, coe_flatten]
  exact Finset.sum_congr rfl (fun r _ => Multiset.coe_eq_coe.mpr (h r))

theorem mem_allParticles {P : Nat} (snap : Fin P → List (Particle D)) (q : Particle D) :
    q ∈ allParticles snap ↔ ∃ r, q ∈ snap r := by
  unfold allParticles
  rw [List.mem_flatten]
  constructor
  · rintro ⟨l, hl, hx⟩
    obtain ⟨r, rfl⟩ := List.mem_ofFn.mp hl
    exact ⟨r, hx⟩
  · rintro ⟨r, hx⟩; exact ⟨snap r, List.mem_ofFn.mpr ⟨r, rfl⟩, hx⟩

theorem sendSizes_ok (f : Nat → Nat) (hf : ∀ j, f j ≤ f (j+1)) : ∀ (n k : Nat),
    sendSizes (f (k+n)) ((List.range' k n).map f) = .ok ((List.range' k n).map (fun j => f (j+1) - f j))
  | 0, k => rfl
  | 1, k => by
    simp only [List.range'_succ, List.range'_zero, List.map_cons, List.map_nil, sendSizes]
    rw [if_pos (hf k)]
  | n + 2, k => by
    have ih := sendSizes_ok f hf (n+1) (k+1)
    rw [show k + 1 + (n + 1) = k + (n + 2) by omega] at ih
    rw [List.range'_succ, List.map_cons]
    rw [List.range'_succ, List.map_cons] at ih ⊢
    rw [sendSizes, if_pos (hf k), ih, Outcome.bind_ok]
    simp only [List.map_cons]

end HBT
