import Verif.Lemmas.OctTree
import Mathlib.Algebra.Order.Archimedean.Basic
/-!
# Helper lemmas on oct-trees: the insertion of all particles and its termination
-/
namespace HBT.OT
open HBT.Model Oct
set_option linter.unusedSectionVars false
variable {K A S : Type} [Field K] [LinearOrder K] [IsStrictOrderedRing K]

/-! ## The enclosing cube -/

theorem extend_le (b : K × K) (x : K) : (extend b x).1 ≤ b.1 ∧ b.2 ≤ (extend b x).2 := by
  unfold extend
  split_ifs with h1 h2
  · exact ⟨le_rfl, le_of_lt h1⟩
  · exact ⟨le_of_lt h2, le_rfl⟩
  · exact ⟨le_rfl, le_rfl⟩

theorem extend_mem' (b : K × K) (x : K) (h : b.1 ≤ b.2) : (extend b x).1 ≤ x ∧ x ≤ (extend b x).2 := by
  unfold extend
  split_ifs with h1 h2
  · exact ⟨h.trans (le_of_lt h1), le_rfl⟩
  · exact ⟨le_rfl, (le_of_lt h2).trans h⟩
  · exact ⟨not_lt.1 h2, not_lt.1 h1⟩

theorem extents (d : Fin 3) : ∀ (rest : List (Fin 3 → K)) (b : K × K), b.1 ≤ b.2 →
    (rest.foldl (fun b x => extend b (x d)) b).1 ≤ b.1 ∧ b.2 ≤ (rest.foldl (fun b x => extend b (x d)) b).2 ∧
    ∀ x ∈ rest, (rest.foldl (fun b x => extend b (x d)) b).1 ≤ x d ∧ x d ≤ (rest.foldl (fun b x => extend b (x d)) b).2
  | [], b, _ => by simp
  | y :: rest, b, hb => by
    have h1 := extend_le b (y d)
    have h2 := extend_mem' b (y d) hb
    obtain ⟨a1, a2, a3⟩ := extents d rest (extend b (y d)) (h2.1.trans h2.2)
    simp only [List.foldl_cons]
    refine ⟨a1.trans h1.1, h1.2.trans a2, fun x hx => ?_⟩
    rcases List.mem_cons.1 hx with rfl | hx
    · exact ⟨a1.trans h2.1, h2.2.trans a2⟩
    · exact a3 x hx

theorem extent_mem (first : Fin 3 → K) (rest : List (Fin 3 → K)) (d : Fin 3) :
    ∀ x ∈ first :: rest, (extent first rest d).1 ≤ x d ∧ x d ≤ (extent first rest d).2 := by
  obtain ⟨h1, h2, h3⟩ := extents d rest (first d, first d) le_rfl
  intro x hx
  rcases List.mem_cons.1 hx with rfl | hx
  · exact ⟨h1, h2⟩
  · exact h3 x hx

theorem maxExtension_ge (e : Fin 3 → K × K) (d : Fin 3) : (e d).2 - (e d).1 ≤ maxExtension e := by
  unfold maxExtension
  simp only
  match d with
  | 0 => split_ifs with h1 h2 h2 <;> linarith
  | 1 => split_ifs with h1 h2 h2 <;> linarith
  | 2 => split_ifs with h1 h2 h2 <;> linarith

/-- Root cell of the tree of the first `N` particles. -/
theorem root_covers {pts : List (Fin 3 → K)} {N : Nat} (hN : 0 < N) (hl : N ≤ pts.length) {first : Fin 3 → K}
    (hf : pts[0]? = some first) :
    let e := extent first ((pts.take N).drop 1)
    0 ≤ maxExtension e ∧ ∀ p < N, Covers pts (maxExtension e) (fun d => ((e d).2 + (e d).1) / 2) p := by
  intro e
  have hcons : pts.take N = first :: (pts.take N).drop 1 := by
    cases pts with
    | nil => simp at hf
    | cons a l =>
      simp at hf; subst hf
      obtain ⟨m, rfl⟩ : ∃ m, N = m + 1 := ⟨N - 1, by omega⟩
      simp
  have hmem := extent_mem first ((pts.take N).drop 1)
  constructor
  · have := hmem 0 first (by simp)
    have h2 := maxExtension_ge e 0
    have : (e 0).1 ≤ (e 0).2 := this.1.trans this.2
    linarith
  · intro p hp x hx d
    have hx' : x ∈ first :: (pts.take N).drop 1 := by
      rw [← hcons]
      refine List.mem_of_getElem? (i := p) ?_
      rw [List.getElem?_take_of_lt hp]; exact hx
    obtain ⟨h1, h2⟩ := hmem d x hx'
    have h3 := maxExtension_ge e d
    rw [abs_le]
    change (e d).1 ≤ x d at h1
    change x d ≤ (e d).2 at h2
    constructor <;> linarith

/-! ## All insertions -/

/-- The cells hold exactly the tree. -/
structure Holds (res : K) (pts : List (Fin 3 → K)) (N : Nat) (cells : List (TreeCell K A)) (len : K) (c : Fin 3 → K)
    (t : Oct) : Prop where
  repr : Repr N cells t
  nodup : t.ids.Nodup
  ids : ∀ m, m ∈ t.ids ↔ m < cells.length
  placed : Placed res pts t len c

theorem insertAll_holds (res resHalf : K) (hres : res = 2 * resHalf) (rand : Nat → Nat) (pts : List (Fin 3 → K))
    (N : Nat) (hN : N ≤ pts.length) (len : K) (c : Fin 3 → K) (hlen : 0 ≤ len) (hcov : ∀ p < N, Covers pts len c p)
    (fuel : Nat) : ∀ (is : List Nat) (draws : Nat) (cells : List (TreeCell K A)) (kids : Fin 8 → Oct),
    (∀ i ∈ is, i < N) → Holds res pts N cells len c (.node 0 kids) → (∀ j, (kids j).Full) →
    insertAll resHalf rand pts N (len / 2) c fuel is draws cells = .diverge ∨
    ∃ cells' draws' kids', insertAll resHalf rand pts N (len / 2) c fuel is draws cells = .ok (cells', draws') ∧
      Holds res pts N cells' len c (.node 0 kids') ∧ (∀ j, (kids' j).Full) ∧
      (Oct.node 0 kids').leaves.Perm (is ++ (Oct.node 0 kids).leaves)
  | [], draws, cells, kids, _, h, hf => Or.inr ⟨cells, draws, kids, rfl, h, hf, by simp⟩
  | i :: is, draws, cells, kids, his, h, hf => by
    rw [insertAll]
    have ha : Agree res len c (len / 2) c := ⟨by linarith, Or.inl ⟨by ring, rfl⟩⟩
    rcases insertLoop_grown res resHalf hres rand pts N i hN (his i (by simp)) fuel draws cells 0 kids (len / 2) len c c
      h.repr h.nodup h.placed hf (hcov i (his i (by simp))) ha with e | ⟨cells1, draws1, kids1, e, g⟩
    · left; rw [e]; rfl
    · rw [e]
      simp only [Outcome.bind_ok]
      have h1 : Holds res pts N cells1 len c (.node 0 kids1) := by
        refine ⟨g.repr, g.nodup, fun m => ?_, g.placed⟩
        rw [g.ids, h.ids]
        have := g.le
        omega
      rcases insertAll_holds res resHalf hres rand pts N hN len c hlen hcov fuel is draws1 cells1 kids1
        (fun a ha => his a (by simp [ha])) h1 g.full.2 with e1 | ⟨cells2, draws2, kids2, e1, h2, f2, l2⟩
      · exact Or.inl e1
      · right
        refine ⟨cells2, draws2, kids2, e1, h2, f2, l2.trans ?_⟩
        exact (List.Perm.append_left is g.leaves).trans (List.perm_middle.trans (by simp))

theorem root_holds (res : K) (pts : List (Fin 3 → K)) (N : Nat) (len : K) (c : Fin 3 → K) :
    Holds res pts N ([.sons (List.replicate 8 (-1))] : List (TreeCell K A)) len c (.node 0 (fun _ => .empty)) ∧
      (Oct.node 0 (fun _ => .empty)).leaves = [] := by
  have hl : (Oct.node 0 (fun _ => .empty)).leaves = [] := by simp [Oct.leaves]
  have hi : (Oct.node 0 (fun _ => .empty)).ids = [0] := by
    have : ∀ l : List (Fin 8), l.flatMap (fun _ => ([] : List Nat)) = [] := fun l => by simp
    simp [Oct.ids, this]
  refine ⟨⟨⟨?_, fun _ => trivial⟩, by rw [hi]; simp, fun m => by rw [hi]; simp, ⟨?_, fun _ => trivial⟩⟩, hl⟩
  · rw [replicate_eq]; rfl
  · rw [hl]; simp

/-! ## Termination -/

/-- Side and centre of the cell of `x` at depth `m` below the cell of half side `h` around `c`. -/
def descend (x : Fin 3 → K) (h : K) (c : Fin 3 → K) : Nat → K × (Fin 3 → K)
  | 0 => (h, c)
  | m + 1 => ((descend x h c m).1 / 2, octantCenter x (descend x h c m).2 ((descend x h c m).1 / 2))

/-- The octant of `x` in its cell at depth `m`. -/
def digit (x : Fin 3 → K) (h : K) (c : Fin 3 → K) (m : Nat) : Nat := octant x (descend x h c m).2

theorem descend_half (x : Fin 3 → K) (h : K) (c : Fin 3 → K) (m : Nat) : (descend x h c m).1 = h / 2 ^ m := by
  induction m with
  | zero => simp [descend]
  | succ m ih => rw [descend, ih, pow_succ]; field_simp

/-- The random octants from draw `d` on are the octants of `x` from depth `m` on. -/
def Jammed (rand : Nat → Nat) (x : Fin 3 → K) (h : K) (c : Fin 3 → K) : Prop :=
  ∃ d m, ∀ n, randomOctant rand (d + n) = digit x h c (m + n)

section Term
variable (resHalf : K) (rand : Nat → Nat) (pts : List (Fin 3 → K)) (N i : Nat) (x : Fin 3 → K) (h : K) (c : Fin 3 → K)

/-- The insertion at node `k`, at depth `m`, ends. -/
def Ends (draws : Nat) (cells : List (TreeCell K A)) (k m : Nat) : Prop :=
  ∃ fuel r, insertLoop resHalf rand pts N i fuel draws cells k (descend x h c m).1 (descend x h c m).2 = .ok r

variable {resHalf rand pts N i x h c}

theorem ends_empty (hx : pts[i]? = some x) {cells : List (TreeCell K A)} {k m draws : Nat} {f : Fin 8 → Int}
    (hk : cells[k]? = some (.sons (List.ofFn f))) (j : Fin 8) (hj : j.val = digit x h c m) (h0 : f j < 0) :
    Ends resHalf rand pts N i x h c draws cells k m := by
  refine ⟨1, (cells.set k (.sons (List.ofFn (Function.update f j (i : Int)))), draws), ?_⟩
  rw [insertLoop]
  simp only [get_some hx, Outcome.bind_ok, readSons_some hk]
  change j.val = octant x (descend x h c m).2 at hj
  rw [← hj, getSon]
  simp only [Outcome.bind_ok, h0, if_true]
  rw [writeSon_some hk]
  rfl

theorem ends_node (hx : pts[i]? = some x) {cells : List (TreeCell K A)} {k m draws k' : Nat} {f : Fin 8 → Int}
    (hk : cells[k]? = some (.sons (List.ofFn f))) (j : Fin 8) (hj : j.val = digit x h c m)
    (hf : f j = ((N + k' : Nat) : Int)) (hrec : Ends resHalf rand pts N i x h c draws cells k' (m + 1)) :
    Ends resHalf rand pts N i x h c draws cells k m := by
  obtain ⟨fuel, r, hr⟩ := hrec
  refine ⟨fuel + 1, r, ?_⟩
  rw [insertLoop]
  simp only [get_some hx, Outcome.bind_ok, readSons_some hk]
  change j.val = octant x (descend x h c m).2 at hj
  rw [← hj, getSon]
  simp only [Outcome.bind_ok]
  rw [hf, if_neg (by omega), if_neg (by omega)]
  have e : ((N + k' : Nat) : Int).toNat - N = k' := by omega
  rw [e]
  exact hr

theorem ends_leaf (hx : pts[i]? = some x) {cells : List (TreeCell K A)} {k m draws q : Nat} {f : Fin 8 → Int}
    {y : Fin 3 → K} (hy : pts[q]? = some y) (hq : q < N)
    (hk : cells[k]? = some (.sons (List.ofFn f))) (j : Fin 8) (hj : j.val = digit x h c m)
    (hf : f j = (q : Int)) (s : Fin 8)
    (hs : s.val = if (descend x h c (m + 1)).1 < resHalf then randomOctant rand draws
      else octant y (descend x h c (m + 1)).2)
    (hrec : Ends resHalf rand pts N i x h c (if (descend x h c (m + 1)).1 < resHalf then draws + 1 else draws)
      (upgraded N cells k f j s q) cells.length (m + 1)) :
    Ends resHalf rand pts N i x h c draws cells k m := by
  obtain ⟨fuel, r, hr⟩ := hrec
  refine ⟨fuel + 1, r, ?_⟩
  rw [insertLoop]
  simp only [get_some hx, Outcome.bind_ok, readSons_some hk]
  change j.val = octant x (descend x h c m).2 at hj
  rw [← hj, getSon]
  simp only [Outcome.bind_ok]
  rw [hf, if_neg (by omega), if_pos (by omega), upgrade_first hk, Outcome.bind_ok]
  by_cases hl : (descend x h c m).1 / 2 < resHalf
  · rw [if_pos hl]
    have hl' : (descend x h c (m + 1)).1 < resHalf := hl
    rw [if_pos hl'] at hs hr
    rw [← hs, upgrade_second, Outcome.bind_ok]
    exact hr
  · rw [if_neg hl]
    have hl' : ¬ (descend x h c (m + 1)).1 < resHalf := hl
    rw [if_neg hl'] at hs hr
    rw [Int.toNat_natCast, get_some hy, Outcome.bind_ok]
    change s.val = octant y (octantCenter x (descend x h c m).2 ((descend x h c m).1 / 2)) at hs
    rw [← hs, upgrade_second, Outcome.bind_ok]
    exact hr

theorem descend_anti (hh : 0 ≤ h) {m n : Nat} (hmn : m ≤ n) : (descend x h c n).1 ≤ (descend x h c m).1 := by
  rw [descend_half, descend_half]
  apply div_le_div_of_nonneg_left hh (by positivity)
  exact pow_le_pow_right₀ (by norm_num) hmn

/-- Below the resolution: a fresh node with one particle in a random slot. -/
theorem ends_random (hh : 0 ≤ h) (hx : pts[i]? = some x) {q : Nat} {y : Fin 3 → K} (hy : pts[q]? = some y) (hq : q < N) :
    ∀ (n : Nat) (cells : List (TreeCell K A)) (k m draws : Nat) (s : Fin 8),
    (descend x h c m).1 < resHalf → s.val = randomOctant rand draws →
    cells[k]? = some (.sons (List.ofFn (Function.update (fun _ => (-1 : Int)) s (q : Int)))) →
    randomOctant rand (draws + n) ≠ digit x h c (m + n) →
    Ends resHalf rand pts N i x h c (draws + 1) cells k m := by
  intro n
  induction n with
  | zero =>
    intro cells k m draws s hl hs hk hne
    refine ends_empty hx hk ⟨_, octant_lt x (descend x h c m).2⟩ rfl ?_
    rw [Function.update_of_ne]
    · norm_num
    · intro e
      apply hne
      rw [Nat.add_zero, Nat.add_zero, ← hs, ← e]
      rfl
  | succ n ih =>
    intro cells k m draws s hl hs hk hne
    by_cases e : (⟨_, octant_lt x (descend x h c m).2⟩ : Fin 8) = s
    · have hl' : (descend x h c (m + 1)).1 < resHalf := lt_of_le_of_lt (descend_anti hh (by omega)) hl
      refine ends_leaf hx hy hq hk s (by rw [← e]; rfl) (by rw [Function.update_self])
        ⟨_, randomOctant_lt rand (draws + 1)⟩ (by rw [if_pos hl']) ?_
      rw [if_pos hl']
      refine ih _ _ _ _ ⟨_, randomOctant_lt rand (draws + 1)⟩ hl' rfl upgraded_new ?_
      have e1 : draws + 1 + n = draws + (n + 1) := by omega
      have e2 : m + 1 + n = m + (n + 1) := by omega
      rw [e1, e2]; exact hne
    · refine ends_empty hx hk ⟨_, octant_lt x (descend x h c m).2⟩ rfl ?_
      rw [Function.update_of_ne e]
      norm_num

/-- Above the resolution: a fresh node with one particle. -/
theorem ends_single (hh : 0 ≤ h) (hx : pts[i]? = some x) {q : Nat} {y : Fin 3 → K} (hy : pts[q]? = some y) (hq : q < N)
    (hj : ¬ Jammed rand x h c) :
    ∀ (n : Nat) (cells : List (TreeCell K A)) (k m draws : Nat) (s : Fin 8), (descend x h c (m + n)).1 < resHalf →
    s.val = (if (descend x h c m).1 < resHalf then randomOctant rand draws else octant y (descend x h c m).2) →
    cells[k]? = some (.sons (List.ofFn (Function.update (fun _ => (-1 : Int)) s (q : Int)))) →
    Ends resHalf rand pts N i x h c (if (descend x h c m).1 < resHalf then draws + 1 else draws) cells k m := by
  intro n
  induction n with
  | zero =>
    intro cells k m draws s hl hs hk
    rw [Nat.add_zero] at hl
    rw [if_pos hl] at hs ⊢
    simp only [Jammed, not_exists, not_forall] at hj
    obtain ⟨n, hn⟩ := hj draws m
    exact ends_random hh hx hy hq n cells k m draws s hl hs hk hn
  | succ n ih =>
    intro cells k m draws s hl hs hk
    by_cases hm : (descend x h c m).1 < resHalf
    · rw [if_pos hm] at hs ⊢
      simp only [Jammed, not_exists, not_forall] at hj
      obtain ⟨n, hn⟩ := hj draws m
      exact ends_random hh hx hy hq n cells k m draws s hm hs hk hn
    · rw [if_neg hm]
      by_cases e : (⟨_, octant_lt x (descend x h c m).2⟩ : Fin 8) = s
      · obtain ⟨s', hs'⟩ : ∃ s' : Fin 8, s'.val = if (descend x h c (m + 1)).1 < resHalf then randomOctant rand draws
            else octant y (descend x h c (m + 1)).2 := by
          split_ifs
          · exact ⟨⟨_, randomOctant_lt rand draws⟩, rfl⟩
          · exact ⟨⟨_, octant_lt _ _⟩, rfl⟩
        refine ends_leaf hx hy hq hk s (by rw [← e]; rfl) (by rw [Function.update_self]) s' hs' ?_
        refine ih _ _ _ _ s' ?_ hs' upgraded_new
        have e2 : m + 1 + n = m + (n + 1) := by omega
        rw [e2]; exact hl
      · refine ends_empty hx hk ⟨_, octant_lt x (descend x h c m).2⟩ rfl ?_
        rw [Function.update_of_ne e]
        norm_num

theorem ends_tree [Archimedean K] (hN : N ≤ pts.length) (hres : 0 < resHalf) (hh : 0 ≤ h) (hx : pts[i]? = some x) (hj : ¬ Jammed rand x h c)
    (cells : List (TreeCell K A)) (draws : Nat) : ∀ (t : Oct) (k m : Nat) (kids : Fin 8 → Oct), t = .node k kids → Repr N cells t →
    Ends resHalf rand pts N i x h c draws cells k m := by
  intro t
  induction t with
  | empty => intro _ _ _ e; cases e
  | leaf p => intro _ _ _ e; cases e
  | node k kids ih =>
    intro k1 m kids1 e hr
    cases e
    obtain ⟨j, hjd⟩ : ∃ j : Fin 8, j.val = digit x h c m := ⟨⟨_, octant_lt x (descend x h c m).2⟩, rfl⟩
    have hrj := hr.2 j
    cases hkj : kids j with
    | empty =>
      exact ends_empty hx hr.1 j hjd (by simp [hkj, Oct.ref])
    | leaf q =>
      rw [hkj] at hrj
      have hqN : q < N := hrj
      obtain ⟨y, hy⟩ : ∃ y, pts[q]? = some y := ⟨_, List.getElem?_eq_getElem (by omega)⟩
      obtain ⟨s', hs'⟩ : ∃ s' : Fin 8, s'.val = if (descend x h c (m + 1)).1 < resHalf then randomOctant rand draws
          else octant y (descend x h c (m + 1)).2 := by
        split_ifs
        · exact ⟨⟨_, randomOctant_lt rand draws⟩, rfl⟩
        · exact ⟨⟨_, octant_lt _ _⟩, rfl⟩
      refine ends_leaf hx hy hqN hr.1 j hjd (by simp [hkj, Oct.ref]) s' hs' ?_
      obtain ⟨n, hn⟩ : ∃ n : Nat, h / resHalf < 2 ^ n := pow_unbounded_of_one_lt _ (by norm_num)
      refine ends_single hh hx hy hqN hj n _ _ _ _ s' ?_ hs' upgraded_new
      refine lt_of_le_of_lt (descend_anti hh (show n ≤ m + 1 + n by omega)) ?_
      rw [descend_half, div_lt_iff₀ (by positivity)]
      rw [div_lt_iff₀ hres] at hn
      linarith
    | node k' kids' =>
      have := ih j k' (m + 1) kids' hkj hrj
      exact ends_node hx hr.1 j hjd (by simp [hkj, Oct.ref]) this
end Term

theorem insertLoop_mono (resHalf : K) (rand : Nat → Nat) (pts : List (Fin 3 → K)) (N i : Nat) :
    ∀ (fuel draws : Nat) (cells : List (TreeCell K A)) (k : Nat) (lenhalf : K) (center : Fin 3 → K)
      (r : List (TreeCell K A) × Nat), insertLoop resHalf rand pts N i fuel draws cells k lenhalf center = .ok r →
      insertLoop resHalf rand pts N i (fuel + 1) draws cells k lenhalf center = .ok r := by
  intro fuel
  induction fuel with
  | zero => intro _ _ _ _ _ _ h; simp [insertLoop] at h
  | succ fuel ih =>
    intro draws cells k lenhalf center r h
    rw [insertLoop] at h ⊢
    cases hx : Outcome.get pts i with
    | ok x =>
      simp only [hx, Outcome.bind_ok] at h ⊢
      cases hs : readSons cells k with
      | ok sons =>
        simp only [hs, Outcome.bind_ok] at h ⊢
        cases hg : Outcome.get sons (octant x center) with
        | ok subid =>
          simp only [hg, Outcome.bind_ok] at h ⊢
          by_cases h0 : subid < 0
          · simpa only [if_pos h0] using h
          · simp only [if_neg h0] at h ⊢
            by_cases h1 : subid < N
            · simp only [if_pos h1] at h ⊢
              cases hw : writeSon (cells ++ [.sons (List.replicate 8 (-1))]) k (octant x center) ((N + cells.length : Nat) : Int) with
              | ok cells1 =>
                simp only [hw, Outcome.bind_ok] at h ⊢
                by_cases h2 : lenhalf / 2 < resHalf
                · simp only [if_pos h2] at h ⊢
                  cases hw2 : writeSon cells1 cells.length (randomOctant rand draws) subid with
                  | ok cells2 =>
                    simp only [hw2, Outcome.bind_ok] at h ⊢
                    exact ih _ _ _ _ _ _ h
                  | _ => simp [hw2] at h
                · simp only [if_neg h2] at h ⊢
                  cases hy : Outcome.get pts subid.toNat with
                  | ok y =>
                    simp only [hy, Outcome.bind_ok] at h ⊢
                    cases hw2 : writeSon cells1 cells.length (octant y (octantCenter x center (lenhalf / 2))) subid with
                    | ok cells2 =>
                      simp only [hw2, Outcome.bind_ok] at h ⊢
                      exact ih _ _ _ _ _ _ h
                    | _ => simp [hw2] at h
                  | _ => simp [hy] at h
              | _ => simp only [hw, Outcome.bind_ub, Outcome.bind_abort, Outcome.bind_diverge, reduceCtorEq] at h
            · simp only [if_neg h1] at h ⊢
              exact ih _ _ _ _ _ _ h
        | _ => simp [hg] at h
      | _ => simp [hs] at h
    | _ => simp [hx] at h

theorem insertLoop_mono' {resHalf : K} {rand : Nat → Nat} {pts : List (Fin 3 → K)} {N i : Nat}
    {fuel draws : Nat} {cells : List (TreeCell K A)} {k : Nat} {lenhalf : K} {center : Fin 3 → K}
    {r : List (TreeCell K A) × Nat} (h : insertLoop resHalf rand pts N i fuel draws cells k lenhalf center = .ok r)
    {fuel' : Nat} (hf : fuel ≤ fuel') : insertLoop resHalf rand pts N i fuel' draws cells k lenhalf center = .ok r := by
  induction hf with
  | refl => exact h
  | step _ ih => exact insertLoop_mono _ _ _ _ _ _ _ _ _ _ _ _ ih

theorem insertAll_mono {resHalf : K} {rand : Nat → Nat} {pts : List (Fin 3 → K)} {N : Nat} {lenhalf : K} {c : Fin 3 → K}
    {fuel fuel' : Nat} (hf : fuel ≤ fuel') : ∀ {is : List Nat} {draws : Nat} {cells : List (TreeCell K A)}
    {r : List (TreeCell K A) × Nat}, insertAll resHalf rand pts N lenhalf c fuel is draws cells = .ok r →
    insertAll resHalf rand pts N lenhalf c fuel' is draws cells = .ok r
  | [], _, _, _, h => by rw [insertAll] at h ⊢; exact h
  | i :: is, draws, cells, r, h => by
    rw [insertAll] at h ⊢
    cases hl : insertLoop resHalf rand pts N i fuel draws cells 0 lenhalf c with
    | ok r1 =>
      rw [hl] at h
      rw [insertLoop_mono' hl hf]
      simp only [Outcome.bind_ok] at h ⊢
      exact insertAll_mono hf h
    | _ => simp [hl] at h

theorem insertAll_ends [Archimedean K] (res resHalf : K) (hres : res = 2 * resHalf) (hpos : 0 < resHalf) (rand : Nat → Nat)
    (pts : List (Fin 3 → K)) (N : Nat) (hN : N ≤ pts.length) (len : K) (c : Fin 3 → K) (hlen : 0 ≤ len)
    (hcov : ∀ p < N, Covers pts len c p)
    (hj : ∀ i < N, ∀ x, pts[i]? = some x → ¬ Jammed rand x (len / 2) c) :
    ∀ (is : List Nat) (draws : Nat) (cells : List (TreeCell K A)) (kids : Fin 8 → Oct), (∀ i ∈ is, i < N) →
    Holds res pts N cells len c (.node 0 kids) → (∀ j, (kids j).Full) →
    ∃ fuel r, insertAll resHalf rand pts N (len / 2) c fuel is draws cells = .ok r
  | [], draws, cells, _, _, _, _ => ⟨0, (cells, draws), rfl⟩
  | i :: is, draws, cells, kids, his, h, hf => by
    have hi := his i (by simp)
    obtain ⟨x, hx⟩ : ∃ x, pts[i]? = some x := ⟨_, List.getElem?_eq_getElem (by omega)⟩
    obtain ⟨fuel, r, hr⟩ := ends_tree hN hpos (show 0 ≤ len / 2 by linarith) hx (hj i hi x hx) cells draws _ 0 0 kids rfl h.repr
    have ha : Agree res len c (len / 2) c := ⟨by linarith, Or.inl ⟨by ring, rfl⟩⟩
    rcases insertLoop_grown res resHalf hres rand pts N i hN hi fuel draws cells 0 kids (len / 2) len c c
      h.repr h.nodup h.placed hf (hcov i hi) ha with e | ⟨cells1, draws1, kids1, e, g⟩
    · rw [show insertLoop resHalf rand pts N i fuel draws cells 0 (len / 2) c = .ok r from hr] at e; cases e
    · have h1 : Holds res pts N cells1 len c (.node 0 kids1) := by
        refine ⟨g.repr, g.nodup, fun m => ?_, g.placed⟩
        rw [g.ids, h.ids]
        have := g.le
        omega
      obtain ⟨fuel2, r2, hr2⟩ := insertAll_ends res resHalf hres hpos rand pts N hN len c hlen hcov hj is draws1 cells1 kids1
        (fun a ha => his a (by simp [ha])) h1 g.full.2
      refine ⟨max fuel fuel2, r2, ?_⟩
      rw [insertAll, insertLoop_mono' e (le_max_left _ _)]
      exact insertAll_mono (le_max_right _ _) hr2

end HBT.OT
