import Verif.Model.Centrals
import Verif.Spec.Member
import Mathlib.Data.List.Basic
import Mathlib.Data.List.Nodup
import Mathlib.Algebra.Order.Ring.Rat
import Mathlib.Tactic.NormNum
/-!
# C24: choice of the central; C25: feeding centrals
-/
namespace HBT.Props
open HBT HBT.Model HBT.Spec
variable {K D : Type}

theorem readAll_ok {α β : Type} (f : α → β) (v : List α) : ∀ is : List Nat, (∀ i ∈ is, i < v.length) →
    ∃ l, readAll f v is = .ok l ∧ l.length = is.length ∧
      ∀ (j i : Nat) a, is[j]? = some i → v[i]? = some a → l[j]? = some (f a) := by
  intro is
  induction is with
  | nil => intro _; exact ⟨[], rfl, rfl, fun j i a h => by simp at h⟩
  | cons i is ih =>
    intro h
    obtain ⟨l, e, hl, hg⟩ := ih (fun k hk => h k (by simp [hk]))
    have hi := h i (by simp)
    refine ⟨f v[i] :: l, ?_, by simp [hl], ?_⟩
    · rw [readAll, Outcome.get_of_lt hi, Outcome.bind_ok, e, Outcome.bind_ok]
    · intro j k a hj ha
      cases j with
      | zero =>
        simp only [List.getElem?_cons_zero, Option.some.injEq] at hj
        subst hj
        rw [List.getElem?_eq_getElem hi, Option.some.injEq] at ha
        simp [ha]
      | succ j => exact hg j k a (by simpa using hj) ha

theorem countMajor_spec [LinearOrder K] (limit : K) : ∀ (ms : List K) (n : Nat),
    n ≤ countMajor limit ms n ∧ countMajor limit ms n ≤ n + ms.length ∧
    (∀ j m, ms[j]? = some m → n + j < countMajor limit ms n → limit ≤ m) ∧
    (∀ m, ms[countMajor limit ms n - n]? = some m → m < limit) := by
  intro ms
  induction ms with
  | nil => intro n; simp [countMajor]
  | cons m ms ih =>
    intro n
    rw [countMajor]
    split
    · rename_i h
      refine ⟨le_refl _, by simp, fun j m' _ hj => by omega, fun m' h' => ?_⟩
      simp at h'; rw [← h']; exact h
    · rename_i h
      obtain ⟨h1, h2, h3, h4⟩ := ih (n+1)
      refine ⟨by omega, by simp; omega, ?_, ?_⟩
      · intro j m' hj hlt
        cases j with
        | zero => simp at hj; rw [← hj]; exact not_lt.1 h
        | succ j => exact h3 j m' (by simpa using hj) (by omega)
      · intro m' hm'
        refine h4 m' ?_
        rw [show countMajor limit ms (n+1) - n = (countMajor limit ms (n+1) - (n+1)) + 1 by omega,
          List.getElem?_cons_succ] at hm'
        exact hm'

theorem closest_spec {R : Type} [LinearOrder R] : ∀ (ds : List R) (i : Nat) (dmin : R) (ic : Nat),
    (closest ds i dmin ic = ic ∧ ∀ d ∈ ds, dmin ≤ d) ∨
    ∃ j d, ds[j]? = some d ∧ closest ds i dmin ic = i + j ∧ d < dmin ∧ (∀ d' ∈ ds, d ≤ d') ∧
      ∀ (j' : Nat) d', ds[j']? = some d' → j' < j → d < d' := by
  intro ds
  induction ds with
  | nil => intro i dmin ic; exact Or.inl ⟨rfl, fun d h => by simp at h⟩
  | cons x ds ih =>
    intro i dmin ic
    rw [closest]
    split
    · rename_i hx
      rcases ih (i+1) x i with ⟨h1, h2⟩ | ⟨j, d, h1, h2, h3, h4, h5⟩
      · refine Or.inr ⟨0, x, rfl, by rw [h1]; rfl, hx, ?_, fun j' d' _ h => absurd h (by omega)⟩
        intro d' hd'
        rcases List.mem_cons.1 hd' with rfl | h
        · exact le_refl _
        · exact h2 d' h
      · refine Or.inr ⟨j+1, d, by simpa using h1, by omega, lt_trans h3 hx, ?_, ?_⟩
        · intro d' hd'
          rcases List.mem_cons.1 hd' with rfl | h
          · exact le_of_lt h3
          · exact h4 d' h
        · intro j' d' hj' hlt
          cases j' with
          | zero => simp at hj'; rw [← hj']; exact h3
          | succ j' => exact h5 j' d' (by simpa using hj') (by omega)
    · rename_i hx
      rcases ih (i+1) dmin ic with ⟨h1, h2⟩ | ⟨j, d, h1, h2, h3, h4, h5⟩
      · refine Or.inl ⟨h1, ?_⟩
        intro d' hd'
        rcases List.mem_cons.1 hd' with rfl | h
        · exact not_lt.1 hx
        · exact h2 d' h
      · refine Or.inr ⟨j+1, d, by simpa using h1, by omega, h3, ?_, ?_⟩
        · intro d' hd'
          rcases List.mem_cons.1 hd' with rfl | h
          · exact le_of_lt (lt_of_lt_of_le h3 (not_lt.1 hx))
          · exact h4 d' h
        · intro j' d' hj' hlt
          cases j' with
          | zero => simp at hj'; rw [← hj']; exact lt_of_lt_of_le h3 (not_lt.1 hx)
          | succ j' => exact h5 j' d' (by simpa using hj') (by omega)

/-- `l` with entries `0` and `k` swapped. -/
def swapped {α : Type} (l : List α) (k : Nat) (h : k < l.length) : List α :=
  (l.set 0 l[k]).set k (l[0]'(by omega))

theorem swapFront_ok {α : Type} (l : List α) (k : Nat) (h : k < l.length) :
    swapFront l k = .ok (swapped l k h) := by
  unfold swapFront swapped
  rw [Outcome.get_of_lt (by omega), Outcome.bind_ok, Outcome.get_of_lt h, Outcome.bind_ok,
    Outcome.set_of_lt (by omega), Outcome.bind_ok, Outcome.set_of_lt (by simpa using h)]

theorem swapped_zero {α : Type} (l : List α) (h : 0 < l.length) : swapped l 0 h = l := by
  unfold swapped; simp

theorem swapped_perm {α : Type} (l : List α) (k : Nat) (h : k < l.length) : (swapped l k h).Perm l :=
  List.set_set_perm (by omega) h

theorem swapped_head {α : Type} (l : List α) (k : Nat) (h : k < l.length) :
    (swapped l k h)[0]? = some l[k] := by
  unfold swapped
  rcases Nat.eq_zero_or_pos k with rfl | hk
  · simp [h]
  · rw [List.getElem?_set_ne (by omega), List.getElem?_set_self (by omega)]

/-- Subhalo `i` is a major progenitor relative to the mass `limit`. -/
def Major [LE K] (subs : List (Sub K D)) (limit : K) (i : Nat) : Prop :=
  ∃ s, subs[i]? = some s ∧ limit ≤ s.mbound

/-- C24. For every non-empty group ordered by decreasing mass (`top` being its first member), every
mass ratio at most one and every distance function: the choice succeeds and only exchanges the
first member with the `k`-th; the new first member is a major progenitor, no major progenitor is
closer, and among equally close ones the first in the list is taken. -/
theorem C24_decide_central {R : Type} [LinearOrder K] [Semiring K] [IsOrderedRing K] [LinearOrder R]
    (ratio : K) (dist : Nat → R) (subs : List (Sub K D)) (list : List Nat) (hne : 0 < list.length)
    (hin : ∀ i ∈ list, i < subs.length) (hsorted : list.Pairwise (NotLighter subs))
    (top : Sub K D) (htop : subs[list[0]]? = some top) (hpos : 0 ≤ top.mbound) (hratio : ratio ≤ 1) :
    ∃ (k : Nat) (hk : k < list.length),
      decideCentral ratio dist subs list = .ok (swapped list k hk) ∧
      (swapped list k hk).Perm list ∧ (swapped list k hk)[0]? = some list[k] ∧
      Major subs (top.mbound * ratio) list[k] ∧
      (∀ i ∈ list, Major subs (top.mbound * ratio) i → dist list[k] ≤ dist i) ∧
      (∀ (j : Nat) (hj : j < list.length), j < k → dist list[k] < dist list[j]) := by
  have htopM : Major subs (top.mbound * ratio) list[0] :=
    ⟨top, htop, mul_le_of_le_one_right hpos hratio⟩
  -- it suffices to find k
  suffices h : ∃ (k : Nat) (hk : k < list.length), decideCentral ratio dist subs list = .ok (swapped list k hk) ∧
      Major subs (top.mbound * ratio) list[k] ∧
      (∀ i ∈ list, Major subs (top.mbound * ratio) i → dist list[k] ≤ dist i) ∧
      (∀ (j : Nat) (hj : j < list.length), j < k → dist list[k] < dist list[j]) by
    obtain ⟨k, hk, h1, h2, h3, h4⟩ := h
    exact ⟨k, hk, h1, swapped_perm _ _ _, swapped_head _ _ _, h2, h3, h4⟩
  unfold decideCentral
  by_cases hlen : 1 < list.length
  swap
  · rw [if_neg hlen]
    refine ⟨0, hne, by rw [swapped_zero], htopM, ?_, fun j _ h => absurd h (by omega)⟩
    intro i hi _
    obtain ⟨j, hj, rfl⟩ := List.getElem_of_mem hi
    have : j = 0 := by omega
    subst this; exact le_refl _
  rw [if_pos hlen]
  obtain ⟨masses, e, hl, hm⟩ := readAll_ok Sub.mbound subs list hin
  have hm0 : masses[0]? = some top.mbound := hm 0 _ top (List.getElem?_eq_getElem hne) htop
  obtain ⟨p0, p1⟩ := List.getElem?_eq_some_iff.1 hm0
  rw [e, Outcome.bind_ok, Outcome.get_of_lt p0, Outcome.bind_ok, p1]
  simp only
  obtain ⟨c1, c2, c3, c4⟩ := countMajor_spec (top.mbound * ratio) masses.tail 1
  set n := countMajor (top.mbound * ratio) masses.tail 1 with hn
  rw [List.length_tail] at c2
  have hnl : n ≤ list.length := by omega
  -- positions below n are major, positions from n on are not
  have hmass : ∀ (j : Nat) (hj : j < list.length), ∃ s, subs[list[j]]? = some s ∧ masses[j]? = some s.mbound := by
    intro j hj
    have hlt := hin list[j] (List.getElem_mem hj)
    exact ⟨_, List.getElem?_eq_getElem hlt, hm j _ _ (List.getElem?_eq_getElem hj) (List.getElem?_eq_getElem hlt)⟩
  have hmaj : ∀ (j : Nat) (hj : j < list.length), j < n → Major subs (top.mbound * ratio) list[j] := by
    intro j hj hjn
    cases j with
    | zero => exact htopM
    | succ j =>
      obtain ⟨s, hs, hs'⟩ := hmass (j+1) hj
      exact ⟨s, hs, c3 j s.mbound (by rw [List.getElem?_tail]; exact hs') (by omega)⟩
  have hmin : ∀ (j : Nat) (hj : j < list.length), n ≤ j → ¬ Major subs (top.mbound * ratio) list[j] := by
    rintro j hj hjn ⟨s, hs, hle⟩
    have hnl' : n < list.length := by omega
    obtain ⟨s', hs', hm'⟩ := hmass n hnl'
    have hlt := c4 s'.mbound (by rw [List.getElem?_tail, show n - 1 + 1 = n by omega]; exact hm')
    rcases eq_or_lt_of_le hjn with rfl | hlt'
    · rw [hs] at hs'; cases hs'
      exact absurd hle (not_le.2 hlt)
    · have := (List.pairwise_iff_getElem.1 hsorted) n j hnl' hj hlt' s' s hs' hs
      exact absurd (le_trans hle this) (not_le.2 hlt)
  by_cases hn1 : 1 < n
  swap
  · rw [if_neg hn1]
    refine ⟨0, hne, by rw [swapped_zero], htopM, ?_, fun j _ h => absurd h (by omega)⟩
    intro i hi hM
    obtain ⟨j, hj, rfl⟩ := List.getElem_of_mem hi
    rcases Nat.eq_zero_or_pos j with rfl | h
    · exact le_refl _
    · exact absurd hM (hmin j hj (by omega))
  rw [if_pos hn1]
  have hds : (list.take n).map dist = dist list[0] :: ((list.take n).map dist).tail := by
    apply List.ext_getElem?
    intro j
    cases j with
    | zero =>
      rw [List.getElem?_map, List.getElem?_take_of_lt (by omega), List.getElem?_eq_getElem hne]
      rfl
    | succ j => rw [List.getElem?_cons_succ, List.getElem?_tail]
  rw [hds]
  simp only
  set rest := ((list.take n).map dist).tail with hrest
  have hget : ∀ (j : Nat) (hj : j + 1 < list.length), j + 1 < n → rest[j]? = some (dist list[j+1]) := by
    intro j hj hjn
    rw [hrest, List.getElem?_tail, List.getElem?_map, List.getElem?_take_of_lt hjn,
      List.getElem?_eq_getElem hj]
    rfl
  have hrl : rest.length = n - 1 := by rw [hrest]; simp; omega
  rcases closest_spec rest 1 (dist list[0]) 0 with ⟨h1, h2⟩ | ⟨j, d, h1, h2, h3, h4, h5⟩
  · rw [h1]
    refine ⟨0, hne, by simp [swapped_zero], htopM, ?_, fun j _ h => absurd h (by omega)⟩
    intro i hi hM
    obtain ⟨j, hj, rfl⟩ := List.getElem_of_mem hi
    cases j with
    | zero => exact le_refl _
    | succ j =>
      have hjn : j + 1 < n := by by_contra hc; exact hmin _ hj (by omega) hM
      exact h2 _ (List.mem_of_getElem? (hget j hj hjn))
  · have hj : j < n - 1 := by rw [← hrl]; exact (List.getElem?_eq_some_iff.1 h1).1
    have hjl : j + 1 < list.length := by omega
    have hd : d = dist list[j+1] := by
      have := hget j hjl (by omega)
      rw [h1, Option.some.injEq] at this
      exact this
    rw [h2, if_pos (by omega), show 1 + j = j + 1 by omega, swapFront_ok list (j+1) hjl]
    refine ⟨j+1, hjl, rfl, hmaj _ hjl (by omega), ?_, ?_⟩
    · intro i hi hM
      obtain ⟨j', hj', rfl⟩ := List.getElem_of_mem hi
      rw [← hd]
      cases j' with
      | zero => exact le_of_lt h3
      | succ j' =>
        have hjn : j' + 1 < n := by by_contra hc; exact hmin _ hj' (by omega) hM
        exact h4 _ (List.mem_of_getElem? (hget j' hj' hjn))
    · intro j' hj' hlt
      rw [← hd]
      cases j' with
      | zero => exact h3
      | succ j' => exact h5 j' _ (hget j' hj' (by omega)) (by omega)

/-- C24, mass ratio above one: no member but possibly the heaviest reaches the limit, and the group
keeps its heaviest member first. -/
theorem C24_large_ratio {R : Type} [LinearOrder K] [Semiring K] [LinearOrder R]
    (ratio : K) (dist : Nat → R) (subs : List (Sub K D)) (list : List Nat) (hne : 0 < list.length)
    (hin : ∀ i ∈ list, i < subs.length) (hsorted : list.Pairwise (NotLighter subs))
    (top : Sub K D) (htop : subs[list[0]]? = some top) (hlim : top.mbound < top.mbound * ratio) :
    decideCentral ratio dist subs list = .ok list := by
  unfold decideCentral
  by_cases hlen : 1 < list.length
  swap
  · rw [if_neg hlen]
  rw [if_pos hlen]
  obtain ⟨masses, e, hl, hm⟩ := readAll_ok Sub.mbound subs list hin
  have hm0 : masses[0]? = some top.mbound := hm 0 _ top (List.getElem?_eq_getElem hne) htop
  obtain ⟨p0, p1⟩ := List.getElem?_eq_some_iff.1 hm0
  have h1lt := hin list[1] (List.getElem_mem hlen)
  have hm1 := hm 1 _ _ (List.getElem?_eq_getElem hlen) (List.getElem?_eq_getElem h1lt)
  have hle := (List.pairwise_iff_getElem.1 hsorted) 0 1 hne hlen (by omega) top _ htop
    (List.getElem?_eq_getElem h1lt)
  rw [e, Outcome.bind_ok, Outcome.get_of_lt p0, Outcome.bind_ok, p1]
  simp only
  have : countMajor (top.mbound * ratio) masses.tail 1 = 1 := by
    obtain ⟨a, b, ms, rfl⟩ : ∃ a b ms, masses = a :: b :: ms := by
      match masses, hl with
      | [], h => simp at h; omega
      | [_], h => simp at h; omega
      | a :: b :: ms, _ => exact ⟨a, b, ms, rfl⟩
    simp at hm1
    rw [List.tail_cons, countMajor, if_pos]
    rw [hm1]; exact lt_of_le_of_lt hle hlim
  rw [this, if_neg (by omega)]

/-- Masses 8, 7, 6, 2, distances 5, 3, 3, 0, ratio 2/3: the second member becomes central. -/
example : ∃ l, decideCentral (2/3 : ℚ) (fun i => ([5, 3, 3, 0] : List Int).getD i 0)
    [ { mbound := 8, lastMaxMass := 8 }, { mbound := 7, lastMaxMass := 8 },
      { mbound := 6, lastMaxMass := 8 }, ({ mbound := 2, lastMaxMass := 8 } : Sub ℚ Unit) ] [0, 1, 2, 3] = .ok l ∧
      l.Perm [0, 1, 2, 3] := by
  obtain ⟨k, hk, e, hp, _⟩ := C24_decide_central (2/3 : ℚ) (fun i => ([5, 3, 3, 0] : List Int).getD i 0)
    [ { mbound := 8, lastMaxMass := 8 }, { mbound := 7, lastMaxMass := 8 },
      { mbound := 6, lastMaxMass := 8 }, ({ mbound := 2, lastMaxMass := 8 } : Sub ℚ Unit) ] [0, 1, 2, 3]
    (by decide) (by decide) (by simp [NotLighter]; norm_num)
    { mbound := 8, lastMaxMass := 8 } rfl (by norm_num) (by norm_num)
  exact ⟨_, e, hp⟩
example : decideCentral (2/3 : ℚ) (fun i => ([5, 3, 3, 0] : List Int).getD i 0)
    [ { mbound := 8, lastMaxMass := 8 }, { mbound := 7, lastMaxMass := 8 },
      { mbound := 6, lastMaxMass := 8 }, ({ mbound := 2, lastMaxMass := 8 } : Sub ℚ Unit) ] [0, 1, 2, 3]
    = .ok [1, 0, 2, 3] := by decide +kernel

/-! ## Feeding centrals -/

theorem promote_ok (id : Int) (ps : List (Particle D)) : ∀ (n i : Nat), i + n = ps.length →
    (∀ (j : Nat) p, ps[j]? = some p → j < i → p.id ≠ id) →
    ∃ ps', promote id n i ps = .ok ps' ∧ ps'.Perm ps ∧
      ((∃ p ∈ ps, p.id = id) → ∃ q, ps'[0]? = some q ∧ q.id = id) ∧
      ((¬ ∃ p ∈ ps, p.id = id) → ps' = ps) := by
  intro n
  induction n with
  | zero =>
    intro i hi hb
    refine ⟨ps, rfl, List.Perm.refl _, ?_, fun _ => rfl⟩
    rintro ⟨p, hp, e⟩
    obtain ⟨j, hj⟩ := List.getElem?_of_mem hp
    exact absurd e (hb j p hj (by have := (List.getElem?_eq_some_iff.1 hj).1; omega))
  | succ n ih =>
    intro i hi hb
    have hil : i < ps.length := by omega
    rw [promote, Outcome.get_of_lt hil, Outcome.bind_ok]
    split
    · rename_i h
      refine ⟨_, swapFront_ok ps i hil, swapped_perm _ _ _, fun _ => ⟨_, swapped_head _ _ _, h⟩, ?_⟩
      intro hno
      exact absurd ⟨_, List.getElem_mem hil, h⟩ hno
    · rename_i h
      refine ih (i+1) (by omega) ?_
      intro j p hj hlt
      rcases Nat.lt_succ_iff_lt_or_eq.1 hlt with h' | rfl
      · exact hb j p hj h'
      · rw [List.getElem?_eq_getElem hil, Option.some.injEq] at hj
        rw [← hj]; exact h

/-- The subhalo created for halo `h` with particles `halo` in snapshot `snap`. -/
def newborn (fresh : Sub K D) (snap : Int) (h : Nat) (halo : List (Particle D)) : Sub K D :=
  { fresh with hostHaloId := h, particles := halo, nbound := halo.length, snapBirth := snap }

/-- `s'` is `s` having taken over the particles of `halo`: all particles of the halo, its previous
first particle in front if it is among them, the halo order otherwise; nothing else changes. -/
def FedFrom (s s' : Sub K D) (halo : List (Particle D)) : Prop :=
  ∃ ps most, s.particles[0]? = some most ∧ s' = { s with particles := ps, nbound := halo.length } ∧
    ps.Perm halo ∧
    ((∃ p ∈ halo, p.id = most.id) → ∃ q, ps[0]? = some q ∧ q.id = most.id) ∧
    ((¬ ∃ p ∈ halo, p.id = most.id) → ps = halo)

/-- The haloes among `hs` without member. -/
def orphaned (groups : List (List Nat)) (hs : List Nat) : List Nat :=
  hs.filter (fun h => decide (groups[h]? = some []))

/-- The invariant of the loop, after the iterations in `done`. -/
structure FeedInv (snap : Int) (fresh : Sub K D) (groups : List (List Nat)) (nBirth : Nat)
    (subs : List (Sub K D)) (halos : List (HostHalo D)) (done : List Nat) (st : FeedState K D) : Prop where
  npro : st.npro = subs.length + (orphaned groups done).length
  len : st.subs.length = subs.length + nBirth
  hlen : st.halos.length = halos.length
  rest : ∀ h, h ∉ done → st.halos[h]? = halos[h]?
  same : ∀ p, p < subs.length → (∀ h ∈ done, ∀ c tl, groups[h]? = some (c :: tl) → c ≠ p) →
    st.subs[p]? = subs[p]?
  fed : ∀ h ∈ done, ∀ c tl, groups[h]? = some (c :: tl) → ∀ s halo, subs[c]? = some s → halos[h]? = some halo →
    ∃ s', st.subs[c]? = some s' ∧ FedFrom s s' halo
  born : ∀ (j h : Nat), (orphaned groups done)[j]? = some h → ∀ halo, halos[h]? = some halo →
    st.subs[subs.length + j]? = some (newborn fresh snap h halo)
  free : ∀ i, st.npro ≤ i → i < subs.length + nBirth → st.subs[i]? = some fresh

theorem feedLoop_ok (snap : Int) (fresh : Sub K D) (groups : List (List Nat)) (nBirth : Nat)
    (subs : List (Sub K D)) (halos : List (HostHalo D)) (hgl : groups.length = halos.length)
    (hb : nBirth = (orphaned groups (List.range halos.length)).length)
    (hc : ∀ (h c : Nat) tl, groups[h]? = some (c :: tl) → ∃ s, subs[c]? = some s ∧ s.particles ≠ [])
    (hd : ∀ (h h' c : Nat) tl tl', groups[h]? = some (c :: tl) → groups[h']? = some (c :: tl') → h = h') :
    ∀ (todo done : List Nat) (st : FeedState K D), (done ++ todo).Perm (List.range halos.length) →
    FeedInv snap fresh groups nBirth subs halos done st →
    ∃ st', feedLoop snap groups todo st = .ok st' ∧
      FeedInv snap fresh groups nBirth subs halos (done ++ todo) st' := by
  intro todo
  induction todo with
  | nil => intro done st _ hI; exact ⟨st, rfl, by simpa using hI⟩
  | cons h todo ih =>
    intro done st hp hI
    have hmem : h ∈ List.range halos.length := hp.subset (by simp)
    have hh : h < halos.length := List.mem_range.1 hmem
    have hnd : (done ++ h :: todo).Nodup := hp.nodup_iff.2 List.nodup_range
    have hnot : h ∉ done := by
      intro hin
      rw [List.nodup_append] at hnd
      exact hnd.2.2 h hin h (by simp) rfl
    have hstep : ∃ st', feedOne snap groups h st = .ok st' ∧
        FeedInv snap fresh groups nBirth subs halos (done ++ [h]) st' := by
      have hhalo : st.halos[h]? = some halos[h] := by rw [hI.rest h hnot, List.getElem?_eq_getElem hh]
      have hhl : h < st.halos.length := by rw [hI.hlen]; exact hh
      have hhv : st.halos[h] = halos[h] := by
        rw [List.getElem?_eq_getElem hhl, Option.some.injEq] at hhalo; exact hhalo
      have hg : h < groups.length := by omega
      rw [feedOne, Outcome.get_of_lt hg, Outcome.bind_ok]
      cases hgh : groups[h] with
      | nil =>
        have hgh' : groups[h]? = some [] := by rw [List.getElem?_eq_getElem hg, hgh]
        have horph : orphaned groups (done ++ [h]) = orphaned groups done ++ [h] := by
          unfold orphaned; rw [List.filter_append]; simp [hgh']
        have hcount : (orphaned groups done).length + 1 ≤ nBirth := by
          rw [hb]
          have hpl : (orphaned groups (done ++ h :: todo)).length
              = (orphaned groups (List.range halos.length)).length := (hp.filter _).length_eq
          have : (orphaned groups (done ++ h :: todo)).length
              = (orphaned groups done).length + (orphaned groups (h :: todo)).length := by
            unfold orphaned; rw [List.filter_append, List.length_append]
          have h2 : 1 ≤ (orphaned groups (h :: todo)).length := by
            unfold orphaned; simp [hgh']
          omega
        have hn := hI.npro
        have hl := hI.len
        have hlt : st.npro < st.subs.length := by omega
        have hfresh : st.subs[st.npro] = fresh := by
          have := hI.free st.npro (le_refl _) (by omega)
          rw [List.getElem?_eq_getElem hlt, Option.some.injEq] at this; exact this
        simp only
        refine ⟨⟨st.npro + 1, st.subs.set st.npro (newborn fresh snap h halos[h]),
          st.halos.set h fresh.particles⟩, ?_, ?_⟩
        · rw [newCentral]
          rw [Outcome.get_of_lt hlt, Outcome.bind_ok, Outcome.get_of_lt hhl, Outcome.bind_ok,
            Outcome.set_of_lt hlt, Outcome.bind_ok, Outcome.set_of_lt hhl, Outcome.bind_ok, hfresh, hhv]
          rfl
        · refine ⟨by simp only; rw [horph]; simp; omega, by simpa using hl, by simpa using hI.hlen, ?_, ?_, ?_,
            ?_, ?_⟩
          · intro h' hh'
            simp only [List.mem_append, List.mem_singleton, not_or] at hh'
            simp only
            rw [List.getElem?_set_ne (fun e => hh'.2 e.symm), hI.rest h' hh'.1]
          · intro p hp' hne
            simp only
            rw [List.getElem?_set_ne (by omega)]
            exact hI.same p hp' (fun h' hm => hne h' (by simp [hm]))
          · intro h' hm c tl hg' s halo hs hha
            simp only [List.mem_append, List.mem_singleton] at hm
            rcases hm with hm | rfl
            · obtain ⟨s', e, hf⟩ := hI.fed h' hm c tl hg' s halo hs hha
              have := (List.getElem?_eq_some_iff.1 hs).1
              refine ⟨s', ?_, hf⟩
              simp only
              rw [List.getElem?_set_ne (by omega)]; exact e
            · rw [hgh'] at hg'; cases hg'
          · intro j h' hj halo hha
            rw [horph] at hj
            simp only
            rcases Nat.lt_or_ge j (orphaned groups done).length with hjl | hjl
            · rw [List.getElem?_append_left hjl] at hj
              rw [List.getElem?_set_ne (by omega)]
              exact hI.born j h' hj halo hha
            · have : j = (orphaned groups done).length := by
                have := (List.getElem?_eq_some_iff.1 hj).1
                simp at this; omega
              subst this
              rw [List.getElem?_append_right (le_refl _)] at hj
              simp at hj
              subst hj
              rw [List.getElem?_eq_getElem hh, Option.some.injEq] at hha
              rw [← hn, List.getElem?_set_self hlt, hha]
          · intro i hi hi2
            simp only at hi ⊢
            rw [List.getElem?_set_ne (by omega)]
            exact hI.free i (by omega) hi2
      | cons c tl =>
        have hgh' : groups[h]? = some (c :: tl) := by rw [List.getElem?_eq_getElem hg, hgh]
        have horph : orphaned groups (done ++ [h]) = orphaned groups done := by
          unfold orphaned; rw [List.filter_append]; simp [hgh']
        obtain ⟨s, hs, hsp⟩ := hc h c tl hgh'
        have hcl : c < subs.length := (List.getElem?_eq_some_iff.1 hs).1
        have hcur : st.subs[c]? = some s := by
          rw [hI.same c hcl, hs]
          intro h' hm c' tl' hg' e
          subst e
          exact hnot (hd h' h c' tl' tl hg' hgh' ▸ hm)
        have hcl' : c < st.subs.length := (List.getElem?_eq_some_iff.1 hcur).1
        have hcv : st.subs[c] = s := (List.getElem?_eq_some_iff.1 hcur).2
        have hp0 : 0 < s.particles.length := List.length_pos_iff.2 hsp
        obtain ⟨ps, e, pp, pin, pout⟩ := promote_ok s.particles[0].id halos[h] halos[h].length 0 (by omega)
          (fun j p _ h => absurd h (by omega))
        simp only
        refine ⟨⟨st.npro, st.subs.set c { s with particles := ps, nbound := halos[h].length },
          st.halos.set h s.particles⟩, ?_, ?_⟩
        · rw [feedCentral, Outcome.get_of_lt hcl', Outcome.bind_ok, Outcome.get_of_lt hhl, Outcome.bind_ok, hcv,
            hhv]
          rw [show decide (s.particles.length ≠ 0) = true by simp; exact hsp]
          rw [Outcome.assert_true, Outcome.bind_ok, Outcome.get_of_lt hp0, Outcome.bind_ok, e, Outcome.bind_ok,
            Outcome.set_of_lt hcl', Outcome.bind_ok, Outcome.set_of_lt hhl, Outcome.bind_ok]
        · have hl := hI.len
          have hn := hI.npro
          refine ⟨by simp only; rw [horph]; exact hn, by simpa using hl, by simpa using hI.hlen, ?_, ?_, ?_,
            ?_, ?_⟩
          · intro h' hh'
            simp only [List.mem_append, List.mem_singleton, not_or] at hh'
            simp only
            rw [List.getElem?_set_ne (fun e => hh'.2 e.symm), hI.rest h' hh'.1]
          · intro p hp' hne
            simp only
            rw [List.getElem?_set_ne (hne h (by simp) c tl hgh')]
            exact hI.same p hp' (fun h' hm => hne h' (by simp [hm]))
          · intro h' hm c' tl' hg' s1 halo hs1 hha
            simp only [List.mem_append, List.mem_singleton] at hm
            rcases hm with hm | rfl
            · have hne : c ≠ c' := by
                rintro rfl
                exact hnot (hd h' h c tl' tl hg' hgh' ▸ hm)
              simp only
              rw [List.getElem?_set_ne hne]
              exact hI.fed h' hm c' tl' hg' s1 halo hs1 hha
            · rw [hgh'] at hg'
              cases hg'
              rw [hs] at hs1
              cases hs1
              rw [List.getElem?_eq_getElem hh, Option.some.injEq] at hha
              subst hha
              simp only
              rw [List.getElem?_set_self hcl']
              exact ⟨_, rfl, ps, s.particles[0], List.getElem?_eq_getElem hp0, rfl, pp, pin, pout⟩
          · intro j h' hj halo hha
            rw [horph] at hj
            simp only
            rw [List.getElem?_set_ne (by omega)]
            exact hI.born j h' hj halo hha
          · intro i hi hi2
            simp only at hi ⊢
            rw [List.getElem?_set_ne (by omega)]
            exact hI.free i hi hi2
    obtain ⟨st', e, hI'⟩ := hstep
    obtain ⟨st'', e', hI''⟩ := ih (done ++ [h]) st' (by simpa using hp) hI'
    exact ⟨st'', by rw [feedLoop, e, Outcome.bind_ok, e'], by simpa using hI''⟩

/-- C25. For every set of groups (whose first members are distinct existing subhaloes with at least
one particle) and every order in which the threads process the haloes: feeding succeeds; the
first member of every non-empty group takes over exactly the particles of its halo, with its previous
most-bound particle in front if the halo has it; each halo without member gets exactly one new
subhalo holding its particles (`births` lists them in the order in which they were created); no
other subhalo changes, and there are no further new subhaloes. -/
theorem C25_feed_centrals (snap : Int) (fresh : Sub K D) (order : List Nat) (groups : List (List Nat))
    (subs : List (Sub K D)) (halos : List (List (Particle D))) (hgl : groups.length = halos.length)
    (horder : order.Perm (List.range halos.length))
    (hc : ∀ (h c : Nat) tl, groups[h]? = some (c :: tl) → ∃ s, subs[c]? = some s ∧ s.particles ≠ [])
    (hd : ∀ (h h' c : Nat) tl tl', groups[h]? = some (c :: tl) → groups[h']? = some (c :: tl') → h = h') :
    ∃ (st : FeedState K D) (births : List Nat), feedCentrals snap fresh order groups
        ((List.range halos.length).filter (fun h => decide (groups[h]? = some []))).length subs halos = .ok st ∧
      births.Perm ((List.range halos.length).filter (fun h => decide (groups[h]? = some []))) ∧
      st.subs.length = subs.length + births.length ∧
      (∀ (j h : Nat) halo, births[j]? = some h → halos[h]? = some halo →
        st.subs[subs.length + j]? = some (newborn fresh snap h halo)) ∧
      (∀ (h c : Nat) tl s halo, groups[h]? = some (c :: tl) → subs[c]? = some s → halos[h]? = some halo →
        ∃ s', st.subs[c]? = some s' ∧ FedFrom s s' halo) ∧
      (∀ p, p < subs.length → (∀ (h c : Nat) tl, groups[h]? = some (c :: tl) → c ≠ p) →
        st.subs[p]? = subs[p]?) := by
  obtain ⟨st, e, hI⟩ := feedLoop_ok snap fresh groups
    ((List.range halos.length).filter (fun h => decide (groups[h]? = some []))).length subs halos hgl rfl hc hd
    order [] ⟨subs.length, subs ++ List.replicate
      ((List.range halos.length).filter (fun h => decide (groups[h]? = some []))).length fresh, halos⟩
    (by simpa using horder)
    { npro := by simp [orphaned]
      len := by simp
      hlen := rfl
      rest := fun _ _ => rfl
      same := fun p hp _ => by simp only; rw [List.getElem?_append_left hp]
      fed := fun h hm => by simp at hm
      born := fun j h hj => by simp [orphaned] at hj
      free := fun i hi hi2 => by
        simp only at hi ⊢
        rw [List.getElem?_append_right hi, List.getElem?_replicate, if_pos (by omega)] }
  rw [List.nil_append] at hI
  have hperm := horder.filter (fun h => decide (groups[h]? = some []))
  refine ⟨st, orphaned groups order, e, hperm, ?_, fun j h halo h1 h2 => hI.born j h h1 halo h2, ?_, ?_⟩
  · rw [hI.len]; unfold orphaned; rw [hperm.length_eq]
  · intro h c tl s halo hg hs hha
    refine hI.fed h ?_ c tl hg s halo hs hha
    rw [horder.mem_iff, List.mem_range, ← hgl]
    exact (List.getElem?_eq_some_iff.1 hg).1
  · intro p hp hne
    exact hI.same p hp (fun h _ => hne h)

/-- Three haloes, the middle one with two progenitors, processed in the order 2, 0, 1. -/
example : ∃ st, feedCentrals 5 ({ mbound := 0, lastMaxMass := 0 } : Sub ℚ Unit) [2, 0, 1] [[], [1, 0], []] 2
    [ { mbound := 2, lastMaxMass := 2, hostHaloId := 1, particles := [⟨8, ()⟩] },
      { mbound := 3, lastMaxMass := 3, hostHaloId := 1, particles := [⟨4, ()⟩, ⟨9, ()⟩] } ]
    [[⟨1, ()⟩], [⟨3, ()⟩, ⟨4, ()⟩, ⟨8, ()⟩], [⟨7, ()⟩]] = .ok st ∧
    st.subs.map (fun s => (s.hostHaloId, s.particles.map Particle.id))
      = [(1, [8]), (1, [4, 3, 8]), (2, [7]), (0, [1])] := by
  refine ⟨_, rfl, ?_⟩; decide
/-- The same case meets the hypotheses. -/
example (subs : List (Sub ℚ Unit)) (hsubs : subs = [
      { mbound := 2, lastMaxMass := 2, hostHaloId := 1, particles := [⟨8, ()⟩] },
      { mbound := 3, lastMaxMass := 3, hostHaloId := 1, particles := [⟨4, ()⟩, ⟨9, ()⟩] } ])
    (halos : List (List (Particle Unit)))
    (hhalos : halos = [[⟨1, ()⟩], [⟨3, ()⟩, ⟨4, ()⟩, ⟨8, ()⟩], [⟨7, ()⟩]]) :
    ∃ (st : FeedState ℚ Unit), feedCentrals 5 ({ mbound := 0, lastMaxMass := 0 } : Sub ℚ Unit) [2, 0, 1]
      [[], [1, 0], []] 2 subs halos = .ok st ∧ st.subs.length = 4 := by
  subst hsubs hhalos
  have key : ∀ (k c : Nat) l, ([[], [1, 0], []] : List (List Nat))[k]? = some (c :: l) → k = 1 ∧ c = 1 := by
    intro k c l hk
    match k, hk with
    | 0, hk => simp at hk
    | 1, hk => simp at hk; exact ⟨rfl, hk.1.symm⟩
    | 2, hk => simp at hk
    | k + 3, hk => simp at hk
  obtain ⟨st, births, e, hp, hl, _⟩ := C25_feed_centrals 5 ({ mbound := 0, lastMaxMass := 0 } : Sub ℚ Unit) [2, 0, 1]
    [[], [1, 0], []] [ { mbound := 2, lastMaxMass := 2, hostHaloId := 1, particles := [⟨8, ()⟩] },
      { mbound := 3, lastMaxMass := 3, hostHaloId := 1, particles := [⟨4, ()⟩, ⟨9, ()⟩] } ]
    [[⟨1, ()⟩], [⟨3, ()⟩, ⟨4, ()⟩, ⟨8, ()⟩], [⟨7, ()⟩]] rfl (by decide)
    (fun h c tl hg => by rw [(key h c tl hg).2]; exact ⟨_, rfl, by simp⟩)
    (fun h h' c tl tl' hg hg' => by rw [(key h c tl hg).1, (key h' c tl' hg').1])
  exact ⟨st, e, by rw [hl, hp.length_eq]; rfl⟩

end HBT.Props
