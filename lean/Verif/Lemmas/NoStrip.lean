import Mathlib.Order.WithBot
import Verif.Model.NoStrip
import Verif.Lemmas.Refine
import Verif.Lemmas.Origin
/-!
# Lemmas about the build without stripping

The build is the main build with energies that are all negative: the energies get a new largest element, which takes the
place of 0.
-/
set_option linter.unusedSectionVars false
namespace HBT.NoStrip
open HBT HBT.Model HBT.Spec
variable {K D E S R : Type}

/-- The energies and one value above them, which is called 0. -/
def Capped (E : Type) : Type := WithTop E

instance [LinearOrder E] : LinearOrder (Capped E) := inferInstanceAs (LinearOrder (WithTop E))
instance : Zero (Capped E) := ⟨(⊤ : WithTop E)⟩

/-- An energy. -/
def capE (x : E) : Capped E := (x : WithTop E)

theorem capE_lt [LinearOrder E] (x : E) : capE x < 0 := WithTop.coe_lt_top x
theorem capE_le [LinearOrder E] {x y : E} : capE x ≤ capE y ↔ x ≤ y := WithTop.coe_le_coe

def cap (x : PE E) : PE (Capped E) := ⟨x.pid, capE x.e⟩
@[simp] theorem cap_pid (x : PE E) : (cap x).pid = x.pid := rfl
@[simp] theorem cap_e (x : PE E) : (cap x).e = capE x.e := rfl

theorem cap_pids (l : List (PE E)) : (l.map cap).map PE.pid = l.map PE.pid := by
  rw [List.map_map]; rfl

theorem cap_injective : Function.Injective (cap : PE E → PE (Capped E)) := by
  rintro ⟨a, x⟩ ⟨b, y⟩ h
  have h1 : a = b := congrArg PE.pid h
  have h2 : capE x = capE y := congrArg PE.e h
  have h3 : x = y := WithTop.coe_injective h2
  rw [h1, h3]

/-- The particles with the energies of the first iteration. -/
def first (env : UnbindEnv K D E) (n : Nat) : List (PE E) := (List.range n).map (fun i => ⟨i, env.energy 0 i⟩)

theorem first_length (env : UnbindEnv K D E) (n : Nat) : (first env n).length = n := by simp [first]

/-- The result of a partition. -/
def partOf [LinearOrder E] [Zero E] (l : List (PE E)) : List (PE E) :=
  match partitionEnergy l l.length with
  | .ok r => r.1
  | _ => []

theorem partOf_spec [LinearOrder E] [Zero E] (l : List (PE E)) :
    (∃ n, partitionEnergy l l.length = .ok (partOf l, n)) ∧ (partOf l).Perm l := by
  obtain ⟨l', n, e, h⟩ := partitionEnergy_spec l l.length (le_refl _)
  have : partOf l = l' := by rw [partOf, e]
  exact ⟨⟨n, by rw [this]; exact e⟩, by rw [this]; exact h.perm⟩

/-- In the order in which the code has them at the end. -/
def sortedFirst [LinearOrder E] [Zero E] (env : UnbindEnv K D E) (n : Nat) : List (PE E) := env.sortE (partOf (first env n))

theorem sortedFirst_perm [LinearOrder E] [Zero E] {env : UnbindEnv K D E} (h : SortsBy PE.e env.sortE) (n : Nat) :
    (sortedFirst env n).Perm (first env n) := (h _).1.trans (partOf_spec _).2

open Classical in
/-- Sorting with the new energies: as before, and the particles after the first partition, which come in another order, get the
order that they get in the build. -/
noncomputable def sortCap [LinearOrder E] [Zero E] (env : UnbindEnv K D E) (m : List (PE (Capped E))) : List (PE (Capped E)) :=
  if 2 ≤ m.length ∧ m = partOf ((first env m.length).map cap) then (sortedFirst env m.length).map cap
  else if h : ∃ l : List (PE E), m = l.map cap then (env.sortE h.choose).map cap
  else m.mergeSort (fun a b => decide (a.e ≤ b.e))

theorem sortCap_sorts [LinearOrder E] [Zero E] {env : UnbindEnv K D E} (h : SortsBy PE.e env.sortE) :
    SortsBy PE.e (sortCap env) := by
  intro m
  unfold sortCap
  split_ifs with h1 h2
  · constructor
    · rw [h1.2]
      refine List.Perm.trans ?_ (partOf_spec _).2.symm
      rw [← h1.2]
      exact (sortedFirst_perm h _).map _
    · rw [List.pairwise_map]
      exact (h _).2.imp (fun h => capE_le.2 h)
  · constructor
    · have := (h h2.choose).1.map cap
      rwa [← h2.choose_spec] at this
    · rw [List.pairwise_map]
      exact (h _).2.imp (fun h => capE_le.2 h)
  · refine ⟨List.mergeSort_perm _ _, ?_⟩
    have := List.pairwise_mergeSort (le := fun a b : PE (Capped E) => decide (a.e ≤ b.e))
      (fun a b c h1 h2 => by
        simp only [decide_eq_true_eq] at h1 h2 ⊢
        exact le_trans h1 h2)
      (fun a b => by
        simp only [Bool.or_eq_true, decide_eq_true_eq]
        exact le_total _ _) m
    exact this.imp (fun h => by simpa using h)

/-- The environment with the new energies. -/
noncomputable def capEnv [LinearOrder E] [Zero E] (env : UnbindEnv K D E) : UnbindEnv K D (Capped E) where
  energy _ i := capE (env.energy 0 i)
  inner i := capE (env.inner i)
  junk i := capE (env.junk i)
  shuffle := env.shuffle
  sortE := sortCap env
  mass := env.mass
  way := env.way

theorem capEnv_ok [LinearOrder E] [Zero E] {env : UnbindEnv K D E} (h : EnvOk env) : EnvOk (capEnv env) :=
  ⟨sortCap_sorts h.sort, h.shuffle⟩

theorem capEnv_negative [LinearOrder E] [Zero E] (env : UnbindEnv K D E) (k i : Nat) : (capEnv env).energy k i < 0 := capE_lt _

theorem sortCap_first [LinearOrder E] [Zero E] (env : UnbindEnv K D E) {n : Nat} (hn : 2 ≤ n) :
    sortCap env (partOf ((first env n).map cap)) = (sortedFirst env n).map cap := by
  have hl : (partOf ((first env n).map cap)).length = n := by
    rw [(partOf_spec _).2.length_eq, List.length_map, first_length]
  unfold sortCap
  rw [hl, if_pos ⟨hn, rfl⟩]

theorem setEnergies_all (f : Nat → E) (l : List (PE E)) : setEnergies f l.length l = l.map (fun x => ⟨x.pid, f x.pid⟩) := by
  unfold setEnergies
  apply List.ext_getElem (by simp)
  intro i h1 h2
  simp only [List.getElem_mapIdx, List.getElem_map]
  rw [if_pos (by simpa using h1)]

/-! ## The partition of negative energies -/

theorem partitionLoop_negative [LinearOrder E] [Zero E] {tmp : PE E} (ht : tmp.e < 0) : ∀ (g i : Nat) (l : List (PE E)), i + 1 + g < l.length →
    (∀ x ∈ l, x.e < 0) → partitionLoop tmp (g + 1) false i l = .ok (l.set (i + 1 + g) tmp, i + 1 + g + 1)
  | 0, i, l, hl, hn => by
    rw [partitionLoop, if_pos rfl, Outcome.set_of_lt (by omega), Outcome.bind_ok, if_pos ht]
  | g + 1, i, l, hl, hn => by
    rw [partitionLoop, if_neg (by omega), Outcome.get_of_lt (by omega), Outcome.bind_ok,
      if_neg (not_lt.2 (hn _ (List.getElem_mem _)).le), partitionLoop_negative ht g (i + 1) l (by omega) hn]
    congr 3 <;> omega

/-- Of negative energies the first and the last change places. -/
theorem partition_negative [LinearOrder E] [Zero E] {l : List (PE E)} (h2 : 2 ≤ l.length) (hn : ∀ x ∈ l, x.e < 0) :
    partitionEnergy l l.length = .ok (partOf l, l.length) ∧
    (partOf l)[0]? = l[l.length - 1]? := by
  have key : partitionEnergy l l.length = .ok (((l.set 0 (l[l.length - 1]'(by omega))).set (l.length - 1) (l[0]'(by omega))), l.length) := by
    rw [partitionEnergy, if_neg (by omega), Outcome.get_of_lt (by omega), Outcome.bind_ok, if_neg (by omega)]
    obtain ⟨g, hg⟩ : ∃ g, l.length = g + 1 + 1 := ⟨l.length - 2, by omega⟩
    have : partitionLoop l[0] (g + 1 + 1) true 0 l = .ok (((l.set 0 (l[l.length - 1]'(by omega))).set (l.length - 1) (l[0]'(by omega))), l.length) := by
      rw [partitionLoop, if_neg (by omega), Outcome.get_of_lt (by omega), Outcome.bind_ok,
        if_pos (hn _ (List.getElem_mem _)), Outcome.set_of_lt (by omega), Outcome.bind_ok]
      have hidx : l[0 + (g + 1)]'(by omega) = l[l.length - 1]'(by omega) := by congr 1; omega
      rw [hidx, partitionLoop_negative (hn _ (List.getElem_mem _)) g 0 _ (by rw [List.length_set]; omega) (by
        intro x hx
        rcases List.mem_or_eq_of_mem_set hx with h | h
        · exact hn x h
        · rw [h]; exact hn _ (List.getElem_mem _))]
      congr 3 <;> omega
    have hgen : ∀ (n : Nat), n = g + 1 + 1 → partitionLoop l[0] n true 0 l = partitionLoop l[0] (g + 1 + 1) true 0 l := by
      rintro n rfl; rfl
    rw [hgen _ hg, this]
  have hp : partOf l = ((l.set 0 (l[l.length - 1]'(by omega))).set (l.length - 1) (l[0]'(by omega))) := by
    rw [partOf, key]
  refine ⟨by rw [key, hp], ?_⟩
  rw [hp, List.getElem?_set_ne (by omega), List.getElem?_set_self (by omega), List.getElem?_eq_getElem (by omega)]

/-- The sort of the refinement is as it was. -/
theorem sortCap_inner [LinearOrder E] [Zero E] (env : UnbindEnv K D E) {l : List (PE E)} (h0 : ∀ x, l.head? = some x → x.pid = 0) :
    sortCap env (l.map cap) = (env.sortE l).map cap := by
  unfold sortCap
  rw [if_neg]
  · have hex : ∃ l' : List (PE E), l.map cap = l'.map cap := ⟨l, rfl⟩
    rw [dif_pos hex]
    have := hex.choose_spec
    rw [← List.map_injective_iff.2 cap_injective this]
  · rintro ⟨h2, h3⟩
    rw [List.length_map] at h2 h3
    have h4 := partition_negative (l := (first env l.length).map cap) (by rw [List.length_map, first_length]; exact h2) (by
      intro x hx
      obtain ⟨y, _, rfl⟩ := List.mem_map.1 hx
      exact capE_lt _)
    have h5 := h4.2
    rw [← h3] at h5
    cases l with
    | nil => simp at h2
    | cons a t =>
      have ha := h0 a rfl
      simp only [List.length_cons, first, List.map_map, List.getElem?_map, List.length_map, List.length_range, Nat.add_sub_cancel] at h5
      rw [List.getElem?_range (by omega)] at h5
      simp only [List.getElem?_cons_zero, Option.map_some, Option.some.injEq] at h5
      have h6 := congrArg PE.pid h5
      simp only [Function.comp, cap_pid] at h6
      simp only [List.length_cons] at h2
      omega

theorem pickAll_map {α β : Type} (f : α → β) (l : List α) : ∀ is : List Nat, ∀ r, pickAll l is = .ok r → pickAll (l.map f) is = .ok (r.map f)
  | [], r, h => by
    rw [pickAll] at h ⊢
    cases h; rfl
  | i :: is, r, h => by
    rw [pickAll] at h
    obtain ⟨x, hx, h⟩ := bind_eq_ok h
    obtain ⟨xs, hxs, h⟩ := bind_eq_ok h
    cases h
    rw [pickAll]
    have h1 : Outcome.get (l.map f) i = .ok (f x) := by
      unfold Outcome.get at hx ⊢
      rw [List.getElem?_map]
      cases hl : l[i]? with
      | none => rw [hl] at hx; cases hx
      | some y => rw [hl] at hx; cases hx; rfl
    rw [h1, Outcome.bind_ok, pickAll_map f l is xs hxs, Outcome.bind_ok]
    rfl

theorem pickAll_ok {α : Type} (l : List α) : ∀ is : List Nat, (∀ i ∈ is, i < l.length) → ∃ r, pickAll l is = .ok r ∧ r.length = is.length
  | [], _ => ⟨[], rfl, rfl⟩
  | i :: is, h => by
    obtain ⟨r, e, hl⟩ := pickAll_ok l is (fun j hj => h j (List.mem_cons_of_mem _ hj))
    refine ⟨l[i]'(h i List.mem_cons_self) :: r, ?_, by simp [hl]⟩
    rw [pickAll, Outcome.get_of_lt (h i List.mem_cons_self), Outcome.bind_ok, e, Outcome.bind_ok]

theorem refineOrder_cap [LinearOrder E] [Zero E] {env : UnbindEnv K D E} (hs : SortsBy PE.e env.sortE) {size : Nat} {l : List (PE E)}
    (h : size ≤ l.length) : ∃ r, refineOrder env size l = .ok r ∧ refineOrder (capEnv env) size (l.map cap) = .ok (r.map cap) := by
  obtain ⟨order, ho⟩ : ∃ o, o = env.sortE ((l.take size).mapIdx (fun i x => ⟨i, env.inner x.pid⟩)) := ⟨_, rfl⟩
  have hlt : ∀ i ∈ order.map PE.pid, i < l.length := by
    intro i hi
    obtain ⟨x, hx, rfl⟩ := List.mem_map.1 hi
    rw [ho, (hs _).1.mem_iff, List.mem_mapIdx] at hx
    obtain ⟨j, hj, rfl⟩ := hx
    rw [List.length_take] at hj
    simp only
    omega
  obtain ⟨r, e, _⟩ := pickAll_ok l _ hlt
  refine ⟨r ++ l.drop size, ?_, ?_⟩
  · rw [refineOrder, if_neg (by omega)]
    simp only [← ho]
    rw [e, Outcome.bind_ok]
  · rw [refineOrder, if_neg (by rw [List.length_map]; omega)]
    have hm : ((l.map cap).take size).mapIdx (fun i x => (⟨i, (capEnv env).inner x.pid⟩ : PE (Capped E))) =
        ((l.take size).mapIdx (fun i x => (⟨i, env.inner x.pid⟩ : PE E))).map cap := by
      apply List.ext_getElem (by simp)
      intro i h1 h2
      simp only [List.getElem_mapIdx, List.getElem_map, List.getElem_take]
      rfl
    simp only
    rw [hm]
    show (do
      let front ← pickAll (l.map cap) ((sortCap env (((l.take size).mapIdx (fun (i : Nat) (x : PE E) => (⟨i, env.inner x.pid⟩ : PE E))).map cap)).map PE.pid)
      Outcome.ok (front ++ (l.map cap).drop size)) = _
    rw [sortCap_inner env (by
      intro x hx
      cases hl : l.take size with
      | nil => rw [hl] at hx; cases hx
      | cons a t => rw [hl, List.mapIdx_cons] at hx; cases hx; rfl), ← ho, cap_pids, pickAll_map cap l _ _ e, Outcome.bind_ok,
      List.map_append, List.map_drop]

/-! ## Unbinding -/

/-- The loop, in one iteration. -/
theorem loop_noStrip [LinearOrder E] [Zero E] {cfg : UnbindConfig} {env : UnbindEnv K D E} (hs : SortsBy PE.e env.sortE) (hprec : Stops cfg.fl cfg.prec)
    (fuel : Nat) {n : Nat} (hn : 2 ≤ n) :
    (unbindLoopNoStrip cfg env (fuel + 1) 0 ((List.range n).map (fun i => ⟨i, env.junk i⟩)) n = .ok none ∧
      unbindLoop cfg (capEnv env) (fuel + 1) 0 ((List.range n).map (fun i => ⟨i, (capEnv env).junk i⟩)) n = .ok none) ∨
    ∃ l, unbindLoopNoStrip cfg env (fuel + 1) 0 ((List.range n).map (fun i => ⟨i, env.junk i⟩)) n = .ok (some (l, n)) ∧
      unbindLoop cfg (capEnv env) (fuel + 1) 0 ((List.range n).map (fun i => ⟨i, (capEnv env).junk i⟩)) n = .ok (some (l.map cap, n)) := by
  have hset : setEnergies (env.energy 0) n ((List.range n).map (fun i => (⟨i, env.junk i⟩ : PE E))) = first env n := by
    have := setEnergies_all (env.energy 0) ((List.range n).map (fun i => (⟨i, env.junk i⟩ : PE E)))
    rw [List.length_map, List.length_range] at this
    rw [this, List.map_map]
    rfl
  have hset' : setEnergies ((capEnv env).energy 0) n ((List.range n).map (fun i => (⟨i, (capEnv env).junk i⟩ : PE (Capped E)))) =
      (first env n).map cap := by
    have := setEnergies_all ((capEnv env).energy 0) ((List.range n).map (fun i => (⟨i, (capEnv env).junk i⟩ : PE (Capped E))))
    rw [List.length_map, List.length_range] at this
    rw [this, List.map_map, first, List.map_map]
    rfl
  obtain ⟨⟨m, e1⟩, hp1⟩ := partOf_spec (first env n)
  rw [first_length] at e1
  have hl1 : (partOf (first env n)).length = n := by rw [hp1.length_eq, first_length]
  have hlc : ((first env n).map cap).length = n := by rw [List.length_map, first_length]
  have e2 := (partition_negative (l := (first env n).map cap) (by rw [hlc]; exact hn) (by
    intro x hx
    obtain ⟨y, _, rfl⟩ := List.mem_map.1 hx
    exact capE_lt _)).1
  rw [hlc] at e2
  have hl2 : (partOf ((first env n).map cap)).length = n := by rw [(partOf_spec _).2.length_eq, hlc]
  have hnil : env.sortE [] = [] := (hs []).1.eq_nil
  have hnil' : sortCap env [] = [] := (sortCap_sorts hs []).1.eq_nil
  have hconv : cfg.fl (cfg.fl n * cfg.prec) ≤ cfg.fl n := hprec n
  have hls : (sortedFirst env n).length = n := by rw [(sortedFirst_perm hs n).length_eq, first_length]
  have s1 : env.sortE (((partOf (first env n)).take n ++ env.sortE (((partOf (first env n)).take n).drop n) ++ (partOf (first env n)).drop n).take n) ++
      ((partOf (first env n)).take n ++ env.sortE (((partOf (first env n)).take n).drop n) ++ (partOf (first env n)).drop n).drop n = sortedFirst env n := by
    have a1 : (partOf (first env n)).take n = partOf (first env n) := List.take_of_length_le hl1.le
    have a2 : (partOf (first env n)).drop n = [] := List.drop_of_length_le hl1.le
    rw [a1, a2, hnil, List.append_nil, List.append_nil, a1, a2, List.append_nil]
    rfl
  have s2 : sortCap env (((partOf ((first env n).map cap)).take n ++ sortCap env (((partOf ((first env n).map cap)).take n).drop n) ++
        (partOf ((first env n).map cap)).drop n).take n) ++
      ((partOf ((first env n).map cap)).take n ++ sortCap env (((partOf ((first env n).map cap)).take n).drop n) ++
        (partOf ((first env n).map cap)).drop n).drop n = (sortedFirst env n).map cap := by
    have a1 : (partOf ((first env n).map cap)).take n = partOf ((first env n).map cap) := List.take_of_length_le hl2.le
    have a2 : (partOf ((first env n).map cap)).drop n = [] := List.drop_of_length_le hl2.le
    rw [a1, a2, hnil', List.append_nil, List.append_nil, a1, a2, List.append_nil, sortCap_first env hn]
  rw [unbindLoopNoStrip, unbindLoop, hset, hset', e1, e2, Outcome.bind_ok, Outcome.bind_ok]
  simp only
  by_cases hlt : n < cfg.minNum
  · rw [if_pos hlt, if_pos hlt]
    exact Or.inl ⟨rfl, rfl⟩
  · rw [if_neg hlt, if_neg hlt, if_pos hconv, if_pos hconv, s1]
    have s2' := s2
    change (capEnv env).sortE _ ++ _ = _ at s2'
    refine Or.inr ?_
    show ∃ l, _ ∧ (if 0 < cfg.maxSample ∧ cfg.refine = true ∧ cfg.maxSample < n then do
        let l ← refineOrder (capEnv env) cfg.maxSample _
        Outcome.ok (some (l, n))
      else Outcome.ok (some (_, n))) = _
    rw [show (capEnv env).sortE = sortCap env from rfl, s2]
    by_cases hr : 0 < cfg.maxSample ∧ cfg.refine = true ∧ cfg.maxSample < n
    · obtain ⟨r, r1, r2⟩ := refineOrder_cap hs (size := cfg.maxSample) (l := sortedFirst env n) (by omega)
      rw [if_pos hr, if_pos hr, r1, r2, Outcome.bind_ok, Outcome.bind_ok]
      exact ⟨r, rfl, rfl⟩
    · rw [if_neg hr, if_neg hr]
      exact ⟨_, rfl, rfl⟩

/-- `Unbind` in this build is `Unbind` with negative energies. -/
theorem unbind_noStrip [LinearOrder E] [Zero E] [MassSum K] {cfg : UnbindConfig} {env : UnbindEnv K D E} (hs : SortsBy PE.e env.sortE)
    (hprec : Stops cfg.fl cfg.prec) (fuel : Nat) (snap : Int) (s : Sub K D) :
    unbindNoStrip cfg env (fuel + 1) snap s = unbind cfg (capEnv env) (fuel + 1) snap s := by
  unfold unbindNoStrip unbind
  simp only
  generalize (if s.particles.length < cfg.minNum then die snap s else s) = s1
  cases hp : s1.particles with
  | nil => rfl
  | cons p0 t =>
    cases t with
    | nil => rfl
    | cons p1 t =>
      have hn : 2 ≤ (p0 :: p1 :: t).length := by simp
      rcases loop_noStrip (cfg := cfg) hs hprec fuel hn with ⟨a, b⟩ | ⟨l, a, b⟩
      · simp only [a, b, Outcome.bind_ok]
        rfl
      · simp only [a, b, Outcome.bind_ok, cap_pids]
        rfl

end HBT.NoStrip
