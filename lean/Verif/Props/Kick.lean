import Verif.Model.Kick
import Mathlib.Data.List.Basic
/-!
# C20: removing consumed particles
-/
namespace HBT.Props
open HBT HBT.Model
variable {D : Type}

/-- The particles that still exist. -/
def survivors (ps : List (Particle D)) : List (Particle D) := ps.filter (fun p => p.id != nullId)

theorem kickLoop_spec : ∀ (n it save : Nat) (arr : List (Particle D)), save ≤ it →
    it + n ≤ arr.length →
    ∃ arr', kickLoop n it save arr
        = .ok (save + (survivors ((arr.drop it).take n)).length, arr') ∧
      arr'.length = arr.length ∧
      arr'.take (save + (survivors ((arr.drop it).take n)).length)
        = arr.take save ++ survivors ((arr.drop it).take n) ∧
      arr'.drop (it + n) = arr.drop (it + n) := by
  intro n
  induction n with
  | zero => intro it save arr _ _; exact ⟨arr, by simp [kickLoop, survivors]⟩
  | succ n ih =>
    intro it save arr hs hl
    have hit : it < arr.length := by omega
    rw [List.drop_eq_getElem_cons hit, List.take_succ_cons, kickLoop, Outcome.get_of_lt hit,
      Outcome.bind_ok]
    split
    · rename_i hp
      have hsv : survivors (arr[it] :: List.take n (List.drop (it + 1) arr))
          = arr[it] :: survivors (List.take n (List.drop (it + 1) arr)) := by
        unfold survivors; rw [List.filter_cons_of_pos (by simpa using hp)]
      rw [hsv]
      have hst : moveTo it save arr[it] arr = .ok (arr.set save arr[it]) := by
        unfold moveTo
        split
        · exact Outcome.set_of_lt (by omega)
        · rename_i h
          have : it = save := by omega
          subst this
          simp
      rw [hst, Outcome.bind_ok]
      obtain ⟨arr', e, h1, h2, h3⟩ := ih (it+1) (save+1) (arr.set save arr[it]) (by omega)
        (by simp; omega)
      have hd : (arr.set save arr[it]).drop (it + 1) = arr.drop (it + 1) := by
        rw [List.drop_set_of_lt (by omega)]
      rw [hd] at e h2
      refine ⟨arr', ?_, by simpa using h1, ?_, ?_⟩
      · rw [e]; simp; omega
      · have : save + (arr[it] :: survivors (List.take n (List.drop (it + 1) arr))).length
            = save + 1 + (survivors (List.take n (List.drop (it + 1) arr))).length := by
          simp; omega
        rw [this, h2, List.take_add_one]
        simp [List.take_set_of_le, show save < arr.length by omega]
      · have hh : (arr.set save arr[it]).drop (it + 1 + n) = arr.drop (it + 1 + n) := by
          rw [List.drop_set_of_lt (by omega)]
        rw [show it + (n + 1) = it + 1 + n by omega, h3, hh]
    · rename_i hp
      have hsv : survivors (arr[it] :: List.take n (List.drop (it + 1) arr))
          = survivors (List.take n (List.drop (it + 1) arr)) := by
        unfold survivors; rw [List.filter_cons_of_neg (by simpa using hp)]
      rw [hsv]
      obtain ⟨arr', e, h1, h2, h3⟩ := ih (it+1) save arr (by omega) (by omega)
      exact ⟨arr', e, h1, h2, by rw [show it + (n + 1) = it + 1 + n by omega]; exact h3⟩

/-- C20, haloes. For every particle list: exactly the null particles are removed, the others stay
in order, and the number removed is returned. -/
theorem C20_kick_halo (ps : List (Particle D)) :
    kickHalo ps = .ok (survivors ps, (ps.filter (fun p => p.id == nullId)).length) := by
  obtain ⟨arr', e, h1, h2, _⟩ := kickLoop_spec ps.length 0 0 ps (by omega) (by omega)
  unfold kickHalo
  simp only [List.drop_zero, List.take_length, Nat.zero_add, List.take_zero, List.nil_append]
    at e h2
  rw [e, Outcome.bind_ok]
  simp only
  rw [h2]
  congr 2
  have := List.length_eq_length_filter_add (l := ps) (fun p => p.id != nullId)
  have h3 : ps.filter (fun p => !(p.id != nullId)) = ps.filter (fun p => p.id == nullId) := by
    congr 1; funext p; simp [bne]
  rw [h3] at this
  unfold survivors
  omega

/-- C20, subhaloes. For every particle list and bound count not exceeding its length: exactly the
null particles are removed, the others stay in order, the new bound count is the number of
survivors among the previously bound ones (which are still the leading ones). -/
theorem C20_kick_subhalo (nbound : Nat) (ps : List (Particle D)) (h : nbound ≤ ps.length) :
    kickSubhalo nbound ps = .ok ((survivors (ps.take nbound)).length, survivors ps,
      (ps.filter (fun p => p.id == nullId)).length) ∧
    (survivors ps).take (survivors (ps.take nbound)).length = survivors (ps.take nbound) := by
  obtain ⟨a, e, h1, h2, h3⟩ := kickLoop_spec nbound 0 0 ps (by omega) (by omega)
  simp only [List.drop_zero, Nat.zero_add, List.take_zero, List.nil_append] at e h2 h3
  have hle : (survivors (ps.take nbound)).length ≤ nbound := by
    have : (survivors (ps.take nbound)).length ≤ (ps.take nbound).length := List.length_filter_le _ _
    simp at this; omega
  obtain ⟨b, e', g1, g2, _⟩ := kickLoop_spec (ps.length - nbound) nbound
    (survivors (ps.take nbound)).length a hle (by omega)
  have hrest : (a.drop nbound).take (ps.length - nbound) = ps.drop nbound := by
    rw [h3]; apply List.take_of_length_le; simp
  rw [hrest, h2] at g2
  rw [hrest] at e'
  have hsplit : survivors ps = survivors (ps.take nbound) ++ survivors (ps.drop nbound) := by
    unfold survivors; rw [← List.filter_append, List.take_append_drop]
  refine ⟨?_, by rw [hsplit]; simp⟩
  unfold kickSubhalo
  rw [e, Outcome.bind_ok]
  simp only
  rw [e', Outcome.bind_ok]
  simp only
  rw [g2, ← hsplit]
  congr 3
  have := List.length_eq_length_filter_add (l := ps) (fun p => p.id != nullId)
  have h3 : ps.filter (fun p => !(p.id != nullId)) = ps.filter (fun p => p.id == nullId) := by
    congr 1; funext p; simp [bne]
  rw [h3] at this
  have hl : (survivors ps).length
      = (survivors (ps.take nbound)).length + (survivors (ps.drop nbound)).length := by
    rw [hsplit]; simp
  unfold survivors at hl ⊢
  omega

/-- C20: if the two parts hold no null particle nothing changes. -/
theorem C20_kick_nothing (nbound : Nat) (ps : List (Particle D)) (h : nbound ≤ ps.length)
    (hn : ∀ p ∈ ps, p.id ≠ nullId) : kickSubhalo nbound ps = .ok (nbound, ps, 0) := by
  have hs : ∀ l : List (Particle D), (∀ p ∈ l, p.id ≠ nullId) → survivors l = l := by
    intro l hl; unfold survivors; rw [List.filter_eq_self]; intro p hp; simpa using hl p hp
  rw [(C20_kick_subhalo nbound ps h).1, hs ps hn, hs _ (fun p hp => hn p (List.mem_of_mem_take hp))]
  have : ps.filter (fun p => p.id == nullId) = [] := by
    rw [List.filter_eq_nil_iff]; intro p hp; simpa using hn p hp
  rw [this]; simp [h]

example : kickSubhalo 4 [⟨5, 'a'⟩, ⟨-1, 'b'⟩, ⟨7, 'c'⟩, ⟨-1, 'd'⟩, ⟨-1, 'e'⟩, ⟨9, 'f'⟩]
    = .ok (2, [⟨5, 'a'⟩, ⟨7, 'c'⟩, ⟨9, 'f'⟩], 3) :=
  (C20_kick_subhalo 4 _ (by decide)).1

/-- Reading `Nbound` past the end of the list is undefined. -/
example : kickSubhalo 2 [(⟨5, 'a'⟩ : Particle Char)] = .ub := by decide

/-- C20. In builds for dark matter only nothing is looked at; this is the same as in other builds if no particle is consumed. -/
theorem C20_kick_halo_dm_only (ps : List (Particle D)) (h : ∀ p ∈ ps, p.id ≠ nullId) : kickHaloDmOnly ps = kickHalo ps := by
  have h1 : survivors ps = ps := by
    unfold survivors
    rw [List.filter_eq_self]
    intro p hp
    simpa using h p hp
  have h2 : ps.filter (fun p => p.id == nullId) = [] := by
    rw [List.filter_eq_nil_iff]
    intro p hp
    simpa using h p hp
  rw [C20_kick_halo, h1, h2]
  rfl

example : kickHaloDmOnly [(⟨5, 1⟩ : Particle Nat), ⟨7, 2⟩] = kickHalo [⟨5, 1⟩, ⟨7, 2⟩] := C20_kick_halo_dm_only _ (by decide)

end HBT.Props
