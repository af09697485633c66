import Verif.Model.UnbindEnergy
import Verif.Lemmas.Unbind
import Verif.Lemmas.Average
import Mathlib.Tactic.Ring
import Mathlib.Tactic.Linarith
import Mathlib.Tactic.FieldSimp
/-!
# Lemmas on the energies in unbinding (C76)
-/
namespace HBT.UE
open HBT HBT.Model HBT.Spec
variable {K D : Type} [Field K] [LinearOrder K]

theorem bind_ok_inv {α β : Type} {x : Outcome α} {f : α → Outcome β} {b : β} (h : x >>= f = .ok b) : ∃ a, x = .ok a ∧ f a = .ok b := by
  cases x with
  | ok a => exact ⟨a, rfl, h⟩
  | ub => cases h
  | abort => cases h
  | diverge => cases h

theorem get_inv {α : Type} {l : List α} {i : Nat} {x : α} (h : Outcome.get l i = .ok x) : l[i]? = some x := by
  unfold Outcome.get at h
  cases e : l[i]? with
  | none => rw [e] at h; cases h
  | some y => rw [e] at h; cases h; rfl

/-- The bodies of the entries of a list. -/
def entryBodies (bs : List (Body K)) (l : List (PE K)) : List (Body K) := l.filterMap (fun e => bs[e.pid]?)

omit [Field K] [LinearOrder K] in
theorem pickAll_members {bs : List (Body K)} : ∀ {l : List (PE K)} {out : List (Body K)}, pickAll bs (l.map PE.pid) = .ok out → out = entryBodies bs l := by
  intro l
  induction l with
  | nil => intro out h; cases h; rfl
  | cons e l ih =>
    intro out h
    rw [List.map_cons, pickAll] at h
    obtain ⟨x, hx, h⟩ := bind_ok_inv h
    obtain ⟨xs, hxs, h⟩ := bind_ok_inv h
    cases h
    rw [entryBodies, List.filterMap_cons, get_inv hx, ih hxs]
    rfl

omit [Field K] [LinearOrder K] in
theorem members_append (bs : List (Body K)) (l l' : List (PE K)) : entryBodies bs (l ++ l') = entryBodies bs l ++ entryBodies bs l' :=
  List.filterMap_append

omit [Field K] [LinearOrder K] in
theorem members_perm (bs : List (Body K)) {l l' : List (PE K)} (h : l.Perm l') : (entryBodies bs l).Perm (entryBodies bs l') := h.filterMap _

omit [Field K] [LinearOrder K] in
theorem members_map (bs : List (Body K)) (l : List (PE K)) : entryBodies bs l = (l.map PE.pid).filterMap (fun i => bs[i]?) := by
  rw [List.filterMap_map]; rfl

omit [LinearOrder K] in
theorem updateFirst_facts {f : Nat → PE K → Outcome K} : ∀ {n i : Nat} {l l1 : List (PE K)}, updateFirst f i n l = .ok l1 →
    n ≤ l.length ∧ l1.map PE.pid = l.map PE.pid ∧ l1.drop n = l.drop n ∧
    ∀ y ∈ l1.take n, ∃ j < n, ∃ x, l[j]? = some x ∧ y.pid = x.pid ∧ f (i + j) x = .ok y.e := by
  intro n
  induction n with
  | zero =>
    intro i l l1 h
    rw [updateFirst] at h
    cases h
    exact ⟨Nat.zero_le _, rfl, rfl, fun y hy => by simp at hy⟩
  | succ n ih =>
    intro i l l1 h
    cases l with
    | nil => cases h
    | cons x l =>
      rw [updateFirst] at h
      obtain ⟨e, he, h⟩ := bind_ok_inv h
      obtain ⟨r, hr, h⟩ := bind_ok_inv h
      cases h
      obtain ⟨h1, h2, h3, h4⟩ := ih hr
      refine ⟨by simpa using h1, by simp [h2], by simpa using h3, ?_⟩
      intro y hy
      rw [List.take_succ_cons, List.mem_cons] at hy
      rcases hy with rfl | hy
      · exact ⟨0, by omega, x, rfl, rfl, he⟩
      · obtain ⟨j, hj, x', hx', hp, hf⟩ := h4 y hy
        exact ⟨j + 1, by omega, x', by simpa using hx', hp, by rw [← hf]; congr 1; omega⟩

omit [LinearOrder K] in
theorem updateFirst_length {f : Nat → PE K → Outcome K} {n i : Nat} {l l1 : List (PE K)} (h : updateFirst f i n l = .ok l1) : l1.length = l.length := by
  have := congrArg List.length (updateFirst_facts h).2.1
  simpa using this

/-- One iteration of `unbindPasses`, from the energies `l1` on. -/
structure Step (cfg : UnbindConfig) (ph : Physics K) (sortE : List (PE K) → List (PE K)) (bs : List (Body K)) (fuel k : Nat) (corr : Option (Frame K))
    (ref : Frame K) (l : List (PE K)) (nlast nbound : Nat) (tr : List (Pass K)) (res : Option (List (PE K) × Nat × Frame K)) (l1 r1 L : List (PE K)) (nb : Nat) : Prop where
  energies : passEnergies cfg.maxSample ph bs k nlast nbound corr ref l = .ok l1
  part : partitionEnergy l1 nbound = .ok (r1, nb)
  def_ : L = r1.take nb ++ sortE ((r1.take nbound).drop nb) ++ r1.drop nbound
  next : (nb < cfg.minNum ∧ tr = [⟨ref, l1.take nbound, nb⟩] ∧ res = none) ∨
    (¬ nb < cfg.minNum ∧ cfg.fl (cfg.fl nbound * cfg.prec) ≤ cfg.fl nb ∧ tr = [⟨ref, l1.take nbound, nb⟩] ∧
      ∃ l', res = some (l', nb, frameOf ph ref (entryBodies bs (L.take nb))) ∧
        (if 0 < cfg.maxSample ∧ cfg.refine ∧ cfg.maxSample < nb then
          refineEnergies ph sortE bs (k + 1) cfg.maxSample (frameOf ph ref (entryBodies bs (L.take nb))) (sortE (L.take nb) ++ L.drop nb)
        else .ok (sortE (L.take nb) ++ L.drop nb)) = .ok l') ∨
    (¬ nb < cfg.minNum ∧ ¬ cfg.fl (cfg.fl nbound * cfg.prec) ≤ cfg.fl nb ∧ ∃ tr', tr = ⟨ref, l1.take nbound, nb⟩ :: tr' ∧
      unbindPasses cfg ph sortE bs fuel (k + 1)
        (if nbound - nb < nb ∧ (cfg.maxSample = 0 ∨ nbound - nb < cfg.maxSample) then some ref else corr)
        (frameOf ph ref (entryBodies bs (L.take nb))) L nbound nb = .ok (tr', res))

theorem step_of {cfg : UnbindConfig} {ph : Physics K} {sortE : List (PE K) → List (PE K)} {bs : List (Body K)} {fuel k : Nat} {corr : Option (Frame K)}
    {ref : Frame K} {l : List (PE K)} {nlast nbound : Nat} {tr : List (Pass K)} {res : Option (List (PE K) × Nat × Frame K)}
    (h : unbindPasses cfg ph sortE bs (fuel + 1) k corr ref l nlast nbound = .ok (tr, res)) :
    ∃ l1 r1 L nb, Step cfg ph sortE bs fuel k corr ref l nlast nbound tr res l1 r1 L nb := by
  rw [unbindPasses] at h
  obtain ⟨l1, h1, h⟩ := bind_ok_inv h
  obtain ⟨⟨r1, nb⟩, h2, h⟩ := bind_ok_inv h
  refine ⟨l1, r1, _, nb, h1, h2, rfl, ?_⟩
  simp only at h
  split at h
  · rename_i hmin
    cases h
    exact Or.inl ⟨hmin, rfl, rfl⟩
  · rename_i hmin
    right
    obtain ⟨bound, h3, h⟩ := bind_ok_inv h
    have hb := pickAll_members h3
    subst hb
    split at h
    · rename_i hconv
      left
      refine ⟨hmin, hconv, ?_⟩
      split at h
      · rename_i hr
        obtain ⟨l', h4, h⟩ := bind_ok_inv h
        cases h
        exact ⟨rfl, l', rfl, by rw [if_pos hr]; exact h4⟩
      · rename_i hr
        cases h
        exact ⟨rfl, _, rfl, by rw [if_neg hr]⟩
    · rename_i hconv
      right
      obtain ⟨⟨tr', res'⟩, h4, h⟩ := bind_ok_inv h
      cases h
      exact ⟨hmin, hconv, tr', rfl, h4⟩

/-- What the energies of an iteration look like. -/
theorem Step.shape {cfg : UnbindConfig} {ph : Physics K} {sortE : List (PE K) → List (PE K)} {bs : List (Body K)} {fuel k : Nat} {corr : Option (Frame K)}
    {ref : Frame K} {l : List (PE K)} {nlast nbound : Nat} {tr : List (Pass K)} {res : Option (List (PE K) × Nat × Frame K)} {l1 r1 L : List (PE K)} {nb : Nat}
    (h : Step cfg ph sortE bs fuel k corr ref l nlast nbound tr res l1 r1 L nb) :
    nbound ≤ l.length ∧ l1.map PE.pid = l.map PE.pid ∧ l1.drop nbound = l.drop nbound ∧ l1.length = l.length := by
  have he := h.energies
  have key : ∀ f, updateFirst f 0 nbound l = .ok l1 →
      nbound ≤ l.length ∧ l1.map PE.pid = l.map PE.pid ∧ l1.drop nbound = l.drop nbound ∧ l1.length = l.length := by
    intro f hf
    obtain ⟨a, b, c, _⟩ := updateFirst_facts hf
    exact ⟨a, b, c, updateFirst_length hf⟩
  cases corr with
  | none =>
    unfold passEnergies at he
    simp only at he
    unfold fullEnergies at he
    obtain ⟨_, _, he⟩ := bind_ok_inv he
    obtain ⟨_, _, he⟩ := bind_ok_inv he
    exact key _ he
  | some old =>
    unfold passEnergies at he
    simp only at he
    unfold correctEnergies at he
    obtain ⟨_, _, he⟩ := bind_ok_inv he
    obtain ⟨_, _, he⟩ := bind_ok_inv he
    exact key _ he

/-- How the list is reordered. -/
theorem reordered {sortE : List (PE K) → List (PE K)} (hs : ∀ l, (sortE l).Perm l) {l1 r1 : List (PE K)} {nbound nb : Nat} (hn : nbound ≤ l1.length)
    (hp : partitionEnergy l1 nbound = .ok (r1, nb)) :
    nb ≤ nbound ∧ r1.length = l1.length ∧
    (r1.take nb ++ sortE ((r1.take nbound).drop nb) ++ r1.drop nbound).length = l1.length ∧
    (r1.take nb ++ sortE ((r1.take nbound).drop nb) ++ r1.drop nbound).take nb = r1.take nb ∧
    ((r1.take nb ++ sortE ((r1.take nbound).drop nb) ++ r1.drop nbound).take nbound).Perm (l1.take nbound) ∧
    (r1.take nb ++ sortE ((r1.take nbound).drop nb) ++ r1.drop nbound).drop nbound = l1.drop nbound ∧
    (r1.take nb ++ (r1.take nbound).drop nb).Perm (l1.take nbound) ∧
    (∀ e ∈ r1.take nb, e.e ≤ 0) ∧ ∀ e ∈ (r1.take nbound).drop nb, 0 ≤ e.e := by
  obtain ⟨l', n, e, hP⟩ := partitionEnergy_spec l1 nbound hn
  rw [hp] at e
  injection e with e
  injection e with e1 e2
  subst e1 e2
  obtain ⟨hd, ht⟩ := perm_take_of_drop hP.perm hP.rest
  have hle := hP.le
  have hl : r1.length = l1.length := hP.perm.length_eq
  have hsl : (sortE ((r1.take nbound).drop nb)).length = nbound - nb := by
    rw [(hs _).length_eq]
    simp
    omega
  have hA : (r1.take nb).length = nb := by simp; omega
  have hAB : (r1.take nb ++ sortE ((r1.take nbound).drop nb)).length = nbound := by
    rw [List.length_append, hA, hsl]; omega
  have h12 : (r1.take nb ++ (r1.take nbound).drop nb) = r1.take nbound := by
    conv_rhs => rw [← List.take_append_drop nb (r1.take nbound)]
    rw [List.take_take, min_eq_left hle]
  refine ⟨hle, hl, ?_, ?_, ?_, ?_, ?_, ?_, ?_⟩
  · rw [List.length_append, hAB, List.length_drop]; omega
  · rw [List.append_assoc, List.take_append_of_le_length (by omega), List.take_of_length_le (by omega)]
  · rw [List.take_append_of_le_length (by omega), List.take_of_length_le (by omega)]
    refine List.Perm.trans ?_ ht
    conv_rhs => rw [← h12]
    exact (hs _).append_left _
  · rw [List.drop_append_of_le_length (by omega), List.drop_of_length_le (by omega), List.nil_append, hd]
  · rw [h12]; exact ht
  · intro e he
    obtain ⟨j, hj⟩ := List.getElem?_of_mem he
    rw [List.getElem?_take] at hj
    split at hj
    · exact hP.bound j e hj (by assumption)
    · cases hj
  · intro e he
    obtain ⟨j, hj⟩ := List.getElem?_of_mem he
    rw [List.getElem?_drop, List.getElem?_take] at hj
    split at hj
    · exact hP.unbound _ e hj (by omega) (by assumption)
    · cases hj

end HBT.UE
