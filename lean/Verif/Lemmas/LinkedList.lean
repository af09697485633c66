import Verif.Model.LinkedList
import Mathlib.Data.List.Nodup
import Mathlib.Data.List.Perm.Subperm
import Mathlib.Tactic.Linarith
import Mathlib.Tactic.Ring
/-!
# Helper lemmas for the cell-linked list
-/
set_option linter.unusedSectionVars false
namespace HBT.LL
open HBT.Model

theorem collectAll_ok {α β : Type} (f : α → Outcome (List β)) (g : α → List β) (as : List α)
    (h : ∀ a ∈ as, f a = .ok (g a)) : collectAll f as = .ok (as.flatMap g) := by
  induction as with
  | nil => rfl
  | cons a as ih =>
    rw [collectAll, h a (by simp), ih (fun b hb => h b (by simp [hb]))]
    simp

theorem collectAll_ok' {α β : Type} (f : α → Outcome (List β)) (as : List α)
    (h : ∀ a ∈ as, ∃ l, f a = .ok l) : ∃ g : α → List β, (∀ a ∈ as, f a = .ok (g a)) ∧
      collectAll f as = .ok (as.flatMap g) := by
  classical
  let g : α → List β := fun a => if h : ∃ l, f a = .ok l then h.choose else []
  have hg : ∀ a ∈ as, f a = .ok (g a) := by
    intro a ha
    have hx := h a ha
    simp only [g, dif_pos hx]
    exact hx.choose_spec
  exact ⟨g, hg, collectAll_ok f g as hg⟩

/-- Following `next` from `pid` visits `l` and ends. -/
inductive ChainAt (next : List Int) : Int → List Nat → Prop
  | nil (pid : Int) (h : pid < 0) : ChainAt next pid []
  | cons (p : Nat) (n : Int) (l : List Nat) (h : next[p]? = some n) (t : ChainAt next n l) :
      ChainAt next p (p :: l)

theorem walk_of_chain {next : List Int} {pid : Int} {l : List Nat} (h : ChainAt next pid l) :
    ∀ fuel, l.length < fuel → walkChain next fuel pid = .ok l := by
  induction h with
  | nil pid h =>
    intro fuel hf
    obtain ⟨f, rfl⟩ : ∃ f, fuel = f + 1 := ⟨fuel - 1, by simp at hf; omega⟩
    rw [walkChain, if_pos h]
  | cons p n l h t ih =>
    intro fuel hf
    obtain ⟨f, rfl⟩ : ∃ f, fuel = f + 1 := ⟨fuel - 1, by simp at hf; omega⟩
    rw [walkChain, if_neg (by omega)]
    have : Outcome.getI next (p : Int) = .ok n := by
      unfold Outcome.getI Outcome.get
      rw [if_neg (by omega)]
      simp [h]
    rw [this, Outcome.bind_ok, ih f (by simp at hf; omega)]
    simp

theorem chain_set {next : List Int} {pid : Int} {l : List Nat} (h : ChainAt next pid l)
    (i : Nat) (v : Int) (hi : i ∉ l) : ChainAt (next.set i v) pid l := by
  induction h with
  | nil pid h => exact .nil pid h
  | cons p n l h t ih =>
    simp only [List.mem_cons, not_or] at hi
    exact .cons p n l (by rw [List.getElem?_set_ne hi.1]; exact h) (ih hi.2)

section Field
variable {K : Type} [Field K] [LinearOrder K] [IsStrictOrderedRing K] [FloorRing K]

/-- Grid coordinate before fixing. -/
def coord (g : CellGrid K) (j : Fin 3) (x : K) : Int := ⌊(x - g.lo j) / g.step j⌋

/-- The index of the cell of a position. -/
def cellOf (g : CellGrid K) (x : Fin 3 → K) : Int :=
  sub2Ind g (fixGridId g (coord g 0 (x 0))) (fixGridId g (coord g 1 (x 1))) (fixGridId g (coord g 2 (x 2)))

theorem gridCoord_ok (g : CellGrid K) (j : Fin 3) (x : K) (h : g.step j ≠ 0) :
    gridCoord g j x = .ok (coord g j x) := by
  rw [gridCoord, if_neg h, coord]

theorem shift_eq_emod (n : Nat) (hn : 0 < n) (i : Int) : shiftGridId n i = i % n := by
  unfold shiftGridId
  simp only
  have h1 := Int.emod_nonneg i (b := n) (by omega)
  rcases Int.lt_or_le i 0 with h | h
  · have e : Int.tmod i n = -((-i) % (n : Int)) := by
      rw [← Int.neg_neg i, Int.neg_tmod, Int.tmod_eq_emod_of_nonneg (by omega), Int.neg_neg]
    rw [e]
    have h2 := Int.emod_nonneg (-i) (b := n) (by omega)
    have h3 := Int.emod_lt_of_pos (-i) (b := n) (by omega)
    have h4 := Int.emod_lt_of_pos i (b := n) (by omega)
    have h5 := Int.mul_ediv_add_emod i n
    have h6 := Int.mul_ediv_add_emod (-i) n
    have h7 : (n : Int) ∣ (i % n + (-i) % n) := by
      refine ⟨- (i / n) - ((-i) / n), ?_⟩
      rw [Int.mul_sub, Int.mul_neg]; omega
    obtain ⟨c, hc⟩ := h7
    have hc0 : 0 ≤ c := by
      by_contra hcon
      have : (n : Int) * c ≤ (n : Int) * (-1) := Int.mul_le_mul_of_nonneg_left (by omega) (by omega)
      omega
    have hc1 : c ≤ 1 := by
      by_contra hcon
      have : (n : Int) * 2 ≤ (n : Int) * c := Int.mul_le_mul_of_nonneg_left (by omega) (by omega)
      omega
    obtain rfl | rfl : c = 0 ∨ c = 1 := by omega
    · rw [Int.mul_zero] at hc
      split <;> omega
    · rw [Int.mul_one] at hc
      split <;> omega
  · rw [Int.tmod_eq_emod_of_nonneg h]
    split <;> omega

theorem fix_range (g : CellGrid K) (hn : 0 < g.ndiv) (i : Int) :
    0 ≤ fixGridId g i ∧ fixGridId g i < g.ndiv := by
  unfold fixGridId
  split
  · rw [shift_eq_emod _ hn]
    exact ⟨Int.emod_nonneg _ (by omega), Int.emod_lt_of_pos _ (by omega)⟩
  · unfold roundGridId
    split
    · omega
    · split <;> omega

theorem sub2Ind_range (g : CellGrid K) (i j k : Int) (hi : 0 ≤ i ∧ i < g.ndiv) (hj : 0 ≤ j ∧ j < g.ndiv)
    (hk : 0 ≤ k ∧ k < g.ndiv) :
    0 ≤ sub2Ind g i j k ∧ sub2Ind g i j k < ((g.ndiv * g.ndiv * g.ndiv : Nat) : Int) := by
  unfold sub2Ind
  push_cast
  generalize (g.ndiv : Int) = n at *
  constructor
  · have := mul_nonneg hj.1 (by omega : 0 ≤ n)
    have := mul_nonneg hk.1 (mul_nonneg (by omega : 0 ≤ n) (by omega : 0 ≤ n))
    omega
  · have h1 : j * n ≤ (n - 1) * n := mul_le_mul_of_nonneg_right (by omega) (by omega)
    have h2 : k * (n * n) ≤ (n - 1) * (n * n) :=
      mul_le_mul_of_nonneg_right (by omega) (mul_nonneg (by omega) (by omega))
    nlinarith

theorem sub2Ind_inj (g : CellGrid K) (i j k i' j' k' : Int) (hi : 0 ≤ i ∧ i < g.ndiv)
    (hj : 0 ≤ j ∧ j < g.ndiv) (hi' : 0 ≤ i' ∧ i' < g.ndiv)
    (hj' : 0 ≤ j' ∧ j' < g.ndiv)
    (h : sub2Ind g i j k = sub2Ind g i' j' k') : i = i' ∧ j = j' ∧ k = k' := by
  unfold sub2Ind at h
  generalize hn : (g.ndiv : Int) = n at *
  have hn0 : 0 < n := by omega
  have e : ∀ i j k : Int, i + j * n + k * (n * n) = i + n * (j + n * k) := by intros; ring
  rw [e, e] at h
  have h1 : i = i' := by
    have := congrArg (· % n) h
    simp only [Int.add_mul_emod_self_left] at this
    rwa [Int.emod_eq_of_lt hi.1 hi.2, Int.emod_eq_of_lt hi'.1 hi'.2] at this
  subst h1
  have h2 : j + n * k = j' + n * k' := by
    have h3 : n * (j + n * k) = n * (j' + n * k') := by omega
    exact Int.eq_of_mul_eq_mul_left (by omega) h3
  have h4 : j = j' := by
    have := congrArg (· % n) h2
    simp only [Int.add_mul_emod_self_left] at this
    rwa [Int.emod_eq_of_lt hj.1 hj.2, Int.emod_eq_of_lt hj'.1 hj'.2] at this
  subst h4
  refine ⟨rfl, rfl, ?_⟩
  have h3 : n * k = n * k' := by omega
  exact Int.eq_of_mul_eq_mul_left (by omega) h3

theorem cellOf_range (g : CellGrid K) (hn : 0 < g.ndiv) (x : Fin 3 → K) :
    0 ≤ cellOf g x ∧ cellOf g x < ((g.ndiv * g.ndiv * g.ndiv : Nat) : Int) :=
  sub2Ind_range g _ _ _ (fix_range g hn _) (fix_range g hn _) (fix_range g hn _)

/-- The first `m` particles are linked: the chain of every cell visits exactly those that are in it. -/
structure LinkedTo (ll : LinkedCells K) (m : Nat) : Prop where
  ndiv_pos : 0 < ll.grid.ndiv
  step_ne : ∀ d, ll.grid.step d ≠ 0
  hoc_len : ll.hoc.length = ll.grid.ndiv * ll.grid.ndiv * ll.grid.ndiv
  next_len : ll.next.length = ll.pts.length
  chains : ∀ ind : Nat, ind < ll.hoc.length → ∃ h l, ll.hoc[ind]? = some h ∧ ChainAt ll.next h l ∧
    l.Nodup ∧ ∀ p, p ∈ l ↔ p < m ∧ ∃ x, ll.pts[p]? = some x ∧ cellOf ll.grid x = ind

theorem insert_ok (ll : LinkedCells K) (m : Nat) (x : Fin 3 → K) (h : LinkedTo ll m)
    (hx : ll.pts[m]? = some x) :
    ∃ ll', insertParticle ll x m = .ok ll' ∧ LinkedTo ll' (m + 1) ∧ ll'.grid = ll.grid ∧
      ll'.pts = ll.pts := by
  obtain ⟨hr0, hr1⟩ := cellOf_range ll.grid h.ndiv_pos x
  have hm : m < ll.pts.length := (List.getElem?_eq_some_iff.1 hx).1
  obtain ⟨ind, hind⟩ := Int.eq_ofNat_of_zero_le hr0
  have hlt : ind < ll.hoc.length := by rw [h.hoc_len]; omega
  obtain ⟨h0, l0, hh0, hc0, hn0, hm0⟩ := h.chains ind hlt
  refine ⟨{ ll with next := ll.next.set m h0, hoc := ll.hoc.set ind m }, ?_, ?_, rfl, rfl⟩
  · unfold insertParticle
    simp only
    rw [gridCoord_ok _ _ _ (h.step_ne 0), gridCoord_ok _ _ _ (h.step_ne 1), gridCoord_ok _ _ _ (h.step_ne 2)]
    simp only [Outcome.bind_ok]
    change (do
      let h ← Outcome.getI ll.hoc (cellOf ll.grid x)
      let next ← Outcome.set ll.next m h
      let hoc ← setHoc ll.hoc (cellOf ll.grid x) m
      Outcome.ok { ll with next := next, hoc := hoc }) = _
    rw [hind]
    have e1 : Outcome.getI ll.hoc (ind : Int) = .ok h0 := by
      unfold Outcome.getI Outcome.get
      rw [if_neg (by omega)]
      simp [hh0]
    rw [e1]
    simp only [Outcome.bind_ok]
    rw [Outcome.set_of_lt (by rw [h.next_len]; exact hm)]
    simp only [Outcome.bind_ok, setHoc]
    rw [if_neg (by omega), Int.toNat_natCast, Outcome.set_of_lt hlt]
    rfl
  · refine ⟨h.ndiv_pos, h.step_ne, by simpa using h.hoc_len, by simpa using h.next_len, ?_⟩
    intro i hi
    simp only [List.length_set] at hi
    obtain ⟨h1, l1, hh1, hc1, hn1, hm1⟩ := h.chains i hi
    have hml : ∀ l : List Nat, (∀ p, p ∈ l → p < m) → m ∉ l := fun l hl hmem => by
      have := hl m hmem; omega
    have hm1' : m ∉ l1 := hml l1 (fun p hp => ((hm1 p).1 hp).1)
    by_cases hii : i = ind
    · subst hii
      rw [hh0] at hh1
      cases hh1
      refine ⟨m, m :: l1, by simp [hlt], ?_, ?_, ?_⟩
      · exact .cons m h0 l1 (by simp [h.next_len, hm]) (chain_set hc1 m h0 hm1')
      · exact List.nodup_cons.2 ⟨hm1', hn1⟩
      · intro p
        simp only [List.mem_cons]
        rw [hm1 p]
        constructor
        · rintro (rfl | ⟨h2, h3⟩)
          · exact ⟨by omega, x, hx, hind⟩
          · exact ⟨by omega, h3⟩
        · rintro ⟨h2, y, hy, hc⟩
          by_cases hpm : p = m
          · exact Or.inl hpm
          · exact Or.inr ⟨by omega, y, hy, hc⟩
    · refine ⟨h1, l1, by rw [List.getElem?_set_ne (Ne.symm hii)]; exact hh1, chain_set hc1 m h0 hm1', hn1, ?_⟩
      intro p
      rw [hm1 p]
      constructor
      · rintro ⟨h2, h3⟩
        exact ⟨by omega, h3⟩
      · rintro ⟨h2, y, hy, hc⟩
        refine ⟨?_, y, hy, hc⟩
        by_contra hpm
        have : p = m := by omega
        subst this
        rw [hx] at hy
        cases hy
        simp only at hc
        rw [hc] at hind
        omega

theorem insertFrom_ok (xs : List (Fin 3 → K)) : ∀ (ll : LinkedCells K) (m : Nat), LinkedTo ll m →
    ll.pts.drop m = xs →
    ∃ ll', insertFrom ll m xs = .ok ll' ∧ LinkedTo ll' ll.pts.length ∧ ll'.grid = ll.grid ∧
      ll'.pts = ll.pts := by
  induction xs with
  | nil =>
    intro ll m h hd
    refine ⟨ll, rfl, ?_, rfl, rfl⟩
    have hle : ll.pts.length ≤ m := by simpa using hd
    refine ⟨h.ndiv_pos, h.step_ne, h.hoc_len, h.next_len, ?_⟩
    intro i hi
    obtain ⟨a, l, h1, h2, h3, h4⟩ := h.chains i hi
    refine ⟨a, l, h1, h2, h3, fun p => ?_⟩
    rw [h4 p]
    constructor
    · rintro ⟨h5, x, hx, hc⟩
      exact ⟨(List.getElem?_eq_some_iff.1 hx).1, x, hx, hc⟩
    · rintro ⟨h5, h6⟩
      exact ⟨by omega, h6⟩
  | cons x xs ih =>
    intro ll m h hd
    have hx : ll.pts[m]? = some x := by
      have := congrArg (·[0]?) hd
      simpa using this
    obtain ⟨ll1, e1, h1, hg, hp⟩ := insert_ok ll m x h hx
    have hd1 : ll1.pts.drop (m + 1) = xs := by
      rw [hp, ← List.drop_drop, hd]; rfl
    obtain ⟨ll2, e2, h2, hg2, hp2⟩ := ih ll1 (m + 1) h1 hd1
    refine ⟨ll2, ?_, ?_, hg2.trans hg, hp2.trans hp⟩
    · rw [insertFrom, e1, Outcome.bind_ok, e2]
    · rw [← hp]; exact h2

/-- A complete list. -/
abbrev Complete (ll : LinkedCells K) : Prop := LinkedTo ll ll.pts.length

theorem init_linked (g : CellGrid K) (pts : List (Fin 3 → K)) (hn : 0 < g.ndiv)
    (hs : ∀ d, g.step d ≠ 0) :
    LinkedTo { grid := g, pts := pts, hoc := List.replicate (g.ndiv * g.ndiv * g.ndiv) (-1),
               next := List.replicate pts.length 0 } 0 := by
  refine ⟨hn, hs, by simp, by simp, ?_⟩
  intro i hi
  simp only [List.length_replicate] at hi
  refine ⟨-1, [], by simp [hi], .nil _ (by omega), List.nodup_nil, ?_⟩
  intro p
  simp

theorem build_ok (ndiv : Nat) (pts : List (Fin 3 → K)) (box : K) (periodic : Bool) (g : CellGrid K)
    (hg : initGrid ndiv pts box periodic = .ok g) (hs : ∀ d, g.step d ≠ 0) :
    ∃ ll, buildCells ndiv pts box periodic = .ok ll ∧ Complete ll ∧ ll.grid = g ∧ ll.pts = pts := by
  have hnd : g.ndiv = ndiv ∧ 0 < ndiv := by
    unfold initGrid at hg
    by_cases h1 : ndiv = 0 ∨ ndiv * ndiv * ndiv ≥ 2 ^ 31
    · rw [if_pos h1] at hg; cases hg
    · rw [if_neg h1] at hg
      by_cases h2 : box ≠ 0
      · rw [if_pos h2] at hg; cases hg; exact ⟨rfl, by omega⟩
      · rw [if_neg h2] at hg
        cases hp : Outcome.get pts 0 with
        | ok p0 => rw [hp] at hg; simp only [Outcome.bind_ok] at hg; cases hg; exact ⟨rfl, by omega⟩
        | ub => rw [hp] at hg; cases hg
        | abort => rw [hp] at hg; cases hg
        | diverge => rw [hp] at hg; cases hg
  have hi := init_linked g pts (by omega) hs
  rw [hnd.1] at hi
  obtain ⟨ll, e, h1, h2, h3⟩ := insertFrom_ok pts _ 0 hi (by simp)
  refine ⟨ll, ?_, by unfold Complete; rw [h3]; exact h1, h2, h3⟩
  rw [buildCells, initCells, hg]
  exact e

/-- The chain of every cell: it can be walked and holds the particles of the cell. -/
theorem chainOf_ok (ll : LinkedCells K) (h : Complete ll) (ind : Int) (h0 : 0 ≤ ind)
    (h1 : ind < ((ll.grid.ndiv * ll.grid.ndiv * ll.grid.ndiv : Nat) : Int)) :
    ∃ l, chainOf ll ind = .ok l ∧ l.Nodup ∧
      ∀ p, p ∈ l ↔ ∃ x, ll.pts[p]? = some x ∧ cellOf ll.grid x = ind := by
  obtain ⟨i, rfl⟩ := Int.eq_ofNat_of_zero_le h0
  obtain ⟨a, l, hh, hc, hn, hm⟩ := h.chains i (by rw [h.hoc_len]; omega)
  refine ⟨l, ?_, hn, ?_⟩
  · unfold chainOf
    have e1 : Outcome.getI ll.hoc (i : Int) = .ok a := by
      unfold Outcome.getI Outcome.get
      rw [if_neg (by omega)]
      simp [hh]
    rw [e1, Outcome.bind_ok]
    apply walk_of_chain hc
    have hsub : l ⊆ List.range ll.pts.length := fun p hp => List.mem_range.2 ((hm p).1 hp).1
    have := (List.subperm_of_subset hn hsub).length_le
    rw [h.next_len]
    simp at this
    omega
  · intro p
    rw [hm p]
    constructor
    · rintro ⟨_, h3⟩; exact h3
    · rintro ⟨x, hx, hc⟩
      exact ⟨(List.getElem?_eq_some_iff.1 hx).1, x, hx, hc⟩

theorem mem_intRange (a b i : Int) : i ∈ intRange a b ↔ a ≤ i ∧ i ≤ b := by
  unfold intRange
  simp only [List.mem_map, List.mem_range]
  constructor
  · rintro ⟨n, hn, rfl⟩; omega
  · rintro ⟨h1, h2⟩; exact ⟨(i - a).toNat, by omega, by omega⟩

theorem nodup_intRange (a b : Int) : (intRange a b).Nodup := by
  unfold intRange
  apply List.Nodup.map _ List.nodup_range
  intro x y h
  simp only at h
  omega

/-- The cells a search of half widths `rad` around `center` visits in dimension `d`. -/
def bounds (g : CellGrid K) (rad center : Fin 3 → K) (d : Fin 3) : Int × Int :=
  if g.periodic then (coord g d (center d - rad d), coord g d (center d + rad d))
  else (fixGridId g (coord g d (center d - rad d)), fixGridId g (coord g d (center d + rad d)))

theorem subboxGrid_ok (g : CellGrid K) (rad center : Fin 3 → K) (d : Fin 3) (h : g.step d ≠ 0) :
    subboxGrid g rad center d = .ok (bounds g rad center d) := by
  rw [subboxGrid, gridCoord_ok _ _ _ h, gridCoord_ok _ _ _ h]
  simp only [Outcome.bind_ok, bounds]

/-- Cell `i` of dimension `d` is visited. -/
def Covers (g : CellGrid K) (rad center : Fin 3 → K) (d : Fin 3) (i : Int) : Prop :=
  (bounds g rad center d).1 ≤ i ∧ i ≤ (bounds g rad center d).2

/-- No cell of dimension `d` is visited twice. -/
def VisitOnce (g : CellGrid K) (rad center : Fin 3 → K) (d : Fin 3) : Prop :=
  ∀ i i', Covers g rad center d i → Covers g rad center d i' → fixGridId g i = fixGridId g i' → i = i'

theorem visited_ok (ll : LinkedCells K) (h : Complete ll) (rad center : Fin 3 → K) :
    ∃ ps, visitedParticles ll rad center = .ok ps ∧
      (∀ p, p ∈ ps ↔ ∃ x, ll.pts[p]? = some x ∧ ∀ d, ∃ i, Covers ll.grid rad center d i ∧
        fixGridId ll.grid i = fixGridId ll.grid (coord ll.grid d (x d))) ∧
      ((∀ d, VisitOnce ll.grid rad center d) → ps.Nodup) := by
  set g := ll.grid with hgdef
  have hr : ∀ i j k : Int, _ := fun i j k =>
    sub2Ind_range g _ _ _ (fix_range g h.ndiv_pos i) (fix_range g h.ndiv_pos j) (fix_range g h.ndiv_pos k)
  choose L hL1 hL2 hL3 using fun i j k : Int => chainOf_ok ll h _ (hr i j k).1 (hr i j k).2
  refine ⟨(intRange (bounds g rad center 0).1 (bounds g rad center 0).2).flatMap fun i =>
    (intRange (bounds g rad center 1).1 (bounds g rad center 1).2).flatMap fun j =>
    (intRange (bounds g rad center 2).1 (bounds g rad center 2).2).flatMap fun k => L i j k, ?_, ?_, ?_⟩
  · unfold visitedParticles
    simp only [← hgdef]
    rw [subboxGrid_ok _ _ _ _ (h.step_ne 0), subboxGrid_ok _ _ _ _ (h.step_ne 1),
      subboxGrid_ok _ _ _ _ (h.step_ne 2)]
    simp only [Outcome.bind_ok]
    refine collectAll_ok _ _ _ (fun i _ => ?_)
    refine collectAll_ok _ _ _ (fun j _ => ?_)
    exact collectAll_ok _ _ _ (fun k _ => hL1 i j k)
  · intro p
    simp only [List.mem_flatMap, mem_intRange]
    constructor
    · rintro ⟨i, hi, j, hj, k, hk, hp⟩
      obtain ⟨x, hx, hc⟩ := (hL3 i j k p).1 hp
      obtain ⟨e0, e1, e2⟩ := sub2Ind_inj g _ _ _ _ _ _ (fix_range g h.ndiv_pos _)
        (fix_range g h.ndiv_pos _) (fix_range g h.ndiv_pos _) (fix_range g h.ndiv_pos _) hc
      refine ⟨x, hx, fun d => ?_⟩
      match d with
      | 0 => exact ⟨i, hi, e0.symm⟩
      | 1 => exact ⟨j, hj, e1.symm⟩
      | 2 => exact ⟨k, hk, e2.symm⟩
    · rintro ⟨x, hx, hd⟩
      obtain ⟨i, hi, e0⟩ := hd 0
      obtain ⟨j, hj, e1⟩ := hd 1
      obtain ⟨k, hk, e2⟩ := hd 2
      refine ⟨i, hi, j, hj, k, hk, (hL3 i j k p).2 ⟨x, hx, ?_⟩⟩
      rw [cellOf, e0, e1, e2]
  · intro hv
    have hsame : ∀ i j k i' j' k' p, p ∈ L i j k → p ∈ L i' j' k' →
        fixGridId g i = fixGridId g i' ∧ fixGridId g j = fixGridId g j' ∧ fixGridId g k = fixGridId g k' := by
      intro i j k i' j' k' p hp hp'
      obtain ⟨x, hx, hc⟩ := (hL3 i j k p).1 hp
      obtain ⟨x', hx', hc'⟩ := (hL3 i' j' k' p).1 hp'
      rw [hx] at hx'
      cases hx'
      exact sub2Ind_inj g _ _ _ _ _ _ (fix_range g h.ndiv_pos _)
        (fix_range g h.ndiv_pos _) (fix_range g h.ndiv_pos _) (fix_range g h.ndiv_pos _) (hc.symm.trans hc')
    rw [List.nodup_flatMap]
    constructor
    · intro i hi
      rw [List.nodup_flatMap]
      constructor
      · intro j hj
        rw [List.nodup_flatMap]
        refine ⟨fun k _ => hL2 i j k, ?_⟩
        refine (nodup_intRange _ _).imp_of_mem ?_
        intro k k' hk hk' hne
        rw [Function.onFun, List.disjoint_left]
        intro p hp hp'
        exact hne (hv 2 k k' ((mem_intRange _ _ _).1 hk) ((mem_intRange _ _ _).1 hk') (hsame _ _ _ _ _ _ p hp hp').2.2)
      · refine (nodup_intRange _ _).imp_of_mem ?_
        intro j j' hj hj' hne
        rw [Function.onFun, List.disjoint_left]
        intro p hp hp'
        simp only [List.mem_flatMap] at hp hp'
        obtain ⟨k, _, hp⟩ := hp
        obtain ⟨k', _, hp'⟩ := hp'
        exact hne (hv 1 j j' ((mem_intRange _ _ _).1 hj) ((mem_intRange _ _ _).1 hj') (hsame _ _ _ _ _ _ p hp hp').2.1)
    · refine (nodup_intRange _ _).imp_of_mem ?_
      intro i i' hi hi' hne
      rw [Function.onFun, List.disjoint_left]
      intro p hp hp'
      simp only [List.mem_flatMap] at hp hp'
      obtain ⟨j, _, k, _, hp⟩ := hp
      obtain ⟨j', _, k', _, hp'⟩ := hp'
      exact hne (hv 0 i i' ((mem_intRange _ _ _).1 hi) ((mem_intRange _ _ _).1 hi') (hsame _ _ _ _ _ _ p hp hp').1)

/-- A search over a complete list reports the visited particles that pass the test. -/
theorem search_ok (ll : LinkedCells K) (h : Complete ll) (rad center : Fin 3 → K)
    (test : (Fin 3 → K) → Option K) :
    ∃ found, searchCells ll rad center test = .ok found ∧
      (∀ p s, (p, s) ∈ found ↔ ∃ x, ll.pts[p]? = some x ∧ test x = some s ∧
        ∀ d, ∃ i, Covers ll.grid rad center d i ∧
          fixGridId ll.grid i = fixGridId ll.grid (coord ll.grid d (x d))) ∧
      ((∀ d, VisitOnce ll.grid rad center d) → (found.map Prod.fst).Nodup) := by
  obtain ⟨ps, h1, h2, h3⟩ := visited_ok ll h rad center
  have hx : ∀ p ∈ ps, ∃ x, ll.pts[p]? = some x := fun p hp => by
    obtain ⟨x, hx, _⟩ := (h2 p).1 hp
    exact ⟨x, hx⟩
  let F : Nat → List (Nat × K) := fun p => match ll.pts[p]? with
    | some x => (match test x with | some r2 => [(p, r2)] | none => [])
    | none => []
  have hFm : ∀ p q s, (q, s) ∈ F p ↔ q = p ∧ ∃ x, ll.pts[p]? = some x ∧ test x = some s := by
    intro p q s
    simp only [F]
    cases hpx : ll.pts[p]? with
    | none => simp
    | some x =>
      cases ht : test x with
      | none => simp [ht]
      | some r => simp [ht]; intro _; exact eq_comm
  refine ⟨ps.flatMap F, ?_, ?_, ?_⟩
  · rw [searchCells, h1, Outcome.bind_ok]
    refine collectAll_ok _ F _ (fun p hp => ?_)
    obtain ⟨x, hpx⟩ := hx p hp
    simp only [Outcome.get, hpx, Outcome.bind_ok, F]
    cases test x <;> rfl
  · intro p s
    rw [List.mem_flatMap]
    constructor
    · rintro ⟨q, hq, hm⟩
      obtain ⟨rfl, x, hpx, ht⟩ := (hFm q p s).1 hm
      obtain ⟨y, hy, hd⟩ := (h2 p).1 hq
      rw [hpx] at hy
      cases hy
      exact ⟨x, hpx, ht, hd⟩
    · rintro ⟨x, hpx, ht, hd⟩
      exact ⟨p, (h2 p).2 ⟨x, hpx, hd⟩, (hFm p p s).2 ⟨rfl, x, hpx, ht⟩⟩
  · intro hv
    rw [List.map_flatMap, List.nodup_flatMap]
    constructor
    · intro p _
      simp only [F]
      split
      · split <;> simp
      · simp
    · refine (h3 hv).imp ?_
      intro p q hne
      rw [Function.onFun, List.disjoint_left]
      intro a ha hb
      simp only [List.mem_map, Prod.exists, exists_and_right, exists_eq_right] at ha hb
      obtain ⟨s, hs⟩ := ha
      obtain ⟨s', hs'⟩ := hb
      exact hne (((hFm p a s).1 hs).1.symm.trans ((hFm q a s').1 hs').1)

end Field
end HBT.LL
