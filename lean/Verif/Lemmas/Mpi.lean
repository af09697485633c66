import Verif.Model.Mpi
import Verif.Lemmas.Basics
import Mathlib.Algebra.BigOperators.Fin
import Mathlib.Algebra.Order.BigOperators.Group.Finset
import Mathlib.Tactic.Linarith
/-!
# Helper lemmas for the transport routines
-/
namespace HBT
open HBT.Model
variable {α : Type}

theorem allRanks_ok {P : Nat} (f : Fin P → Outcome α) (g : Fin P → α)
    (h : ∀ i, f i = .ok (g i)) : allRanks P f = .ok g := by
  induction P with
  | zero => rw [allRanks]; congr 1; funext i; exact i.elim0
  | succ P ih =>
    rw [allRanks, h 0, Outcome.bind_ok, ih _ (fun i => g i.succ) (fun i => h i.succ),
      Outcome.bind_ok]
    congr 1
    funext i
    refine Fin.cases ?_ ?_ i
    · simp
    · intro j; simp

theorem allRanks_ub_zero {P : Nat} (f : Fin (P+1) → Outcome α) (h : f 0 = .ub) :
    allRanks (P+1) f = .ub := by
  rw [allRanks, h]; rfl

/-- Prefix sum before rank `r`. -/
def offOf {P : Nat} (c : Fin P → Nat) (r : Fin P) : Nat := ((List.ofFn c).take r.val).sum

theorem disps_ok {P : Nat} (c : Fin P → Nat) (r : Fin P) : disps c r = .ok (offOf c r) := by
  unfold disps Outcome.get compileOffsets
  rw [compileOffsetsFrom_get 0 _ r.val (by simp)]
  simp [offOf]

theorem offOf_lt {P : Nat} (c : Fin P → Nat) {r r' : Fin P} (h : r < r') :
    offOf c r + c r ≤ offOf c r' := by
  have hr : r.val < (List.ofFn c).length := by simp
  have h1 := sum_take_succ' (List.ofFn c) r.val hr
  have h2 := sum_take_mono (List.ofFn c) (show r.val + 1 ≤ r'.val from h)
  simp only [List.getElem_ofFn, Fin.eta] at h1
  unfold offOf
  omega

theorem offOf_le_total {P : Nat} (c : Fin P → Nat) (r : Fin P) :
    offOf c r + c r ≤ (List.ofFn c).sum := by
  have hr : r.val < (List.ofFn c).length := by simp
  have h1 := sum_take_succ' (List.ofFn c) r.val hr
  have h2 := sum_take_mono (List.ofFn c) (show r.val + 1 ≤ P by omega)
  simp only [List.getElem_ofFn, Fin.eta] at h1
  have h3 : ((List.ofFn c).take P).sum = (List.ofFn c).sum := by
    rw [List.take_of_length_le]; simp
  unfold offOf
  omega

theorem offOf_disjoint {P : Nat} (c : Fin P → Nat) {r r' : Fin P} (h : r ≠ r') :
    offOf c r + c r ≤ offOf c r' ∨ offOf c r' + c r' ≤ offOf c r := by
  rcases lt_or_gt_of_ne h with h | h
  · exact Or.inl (offOf_lt c h)
  · exact Or.inr (offOf_lt c h)

theorem total_ok {P : Nat} (c : Fin P → Nat) : (compileOffsets (List.ofFn c)).2 = ∑ r, c r := by
  unfold compileOffsets
  rw [compileOffsetsFrom_total, List.sum_ofFn]; omega

theorem writeAt_get (buf xs out : List α) (off : Nat) (h : writeAt buf off xs = .ok out) :
    off + xs.length ≤ buf.length ∧ out.length = buf.length ∧
    ∀ p, out[p]? = if off ≤ p ∧ p < off + xs.length then xs[p-off]? else buf[p]? := by
  unfold writeAt at h
  split at h
  · rename_i hle
    cases h
    refine ⟨hle, by simp; omega, fun p => ?_⟩
    have ht : (buf.take off).length = off := by simp; omega
    split
    · rename_i hp
      rw [List.append_assoc, List.getElem?_append_right (by omega), ht,
        List.getElem?_append_left (by omega)]
    · rename_i hp
      rcases Nat.lt_or_ge p off with h | h
      · rw [List.append_assoc, List.getElem?_append_left (by omega), List.getElem?_take_of_lt h]
      · rw [List.getElem?_append_right (by rw [List.length_append, ht]; omega),
          List.getElem?_drop, List.length_append, ht]
        congr 1; omega
  · cases h

theorem writeAt_ok (buf xs : List α) (off : Nat) (h : off + xs.length ≤ buf.length) :
    ∃ out, writeAt buf off xs = .ok out := by
  unfold writeAt; rw [if_pos h]; exact ⟨_, rfl⟩

theorem slice_of_get (buf xs : List α) (off n : Nat) (hx : xs.length = n)
    (hle : off + n ≤ buf.length)
    (h : ∀ p, p < n → buf[off+p]? = xs[p]?) : slice buf off n = .ok xs := by
  unfold slice
  rw [if_pos hle]
  congr 1
  apply List.ext_getElem?
  intro p
  rcases Nat.lt_or_ge p n with hp | hp
  · rw [List.getElem?_take_of_lt hp, List.getElem?_drop, h p hp]
  · rw [List.getElem?_eq_none (by simp; omega), List.getElem?_eq_none (by omega)]

/-- The pack loop stores each destination's chunk at its displacement. -/
theorem packLoop_ok {P : Nat} (c : Fin P → Nat) : ∀ (rs : List (Fin P)) (buf : List α)
    (its : Fin P → List α), rs.Nodup → (∀ r ∈ rs, c r ≤ (its r).length) →
    (List.ofFn c).sum ≤ buf.length →
    ∃ out its', packLoop c rs buf its = .ok (out, its') ∧ out.length = buf.length ∧
      (∀ r ∈ rs, its' r = (its r).drop (c r)) ∧ (∀ r, r ∉ rs → its' r = its r) ∧
      (∀ r ∈ rs, ∀ p, p < c r → out[offOf c r + p]? = ((its r).take (c r))[p]?) ∧
      (∀ r, r ∉ rs → ∀ p, p < c r → out[offOf c r + p]? = buf[offOf c r + p]?) := by
  intro rs
  induction rs with
  | nil =>
    intro buf its _ _ _
    exact ⟨buf, its, rfl, rfl, by simp, fun _ _ => rfl, by simp, fun _ _ _ _ => rfl⟩
  | cons r rs ih =>
    intro buf its hnd hlen htot
    rw [List.nodup_cons] at hnd
    have hr := hlen r (by simp)
    have hxl : ((its r).take (c r)).length = c r := by simp; omega
    have hoff := offOf_le_total c r
    obtain ⟨b1, e1⟩ := writeAt_ok buf ((its r).take (c r)) (offOf c r) (by omega)
    obtain ⟨_, hl1, hg1⟩ := writeAt_get _ _ _ _ e1
    obtain ⟨out, its', e2, l2, d2, k2, w2, o2⟩ := ih b1 (Function.update its r ((its r).drop (c r)))
      hnd.2 (by
        intro r' hr'
        have hne : r' ≠ r := fun h => hnd.1 (h ▸ hr')
        rw [Function.update_of_ne hne]
        exact hlen r' (by simp [hr'])) (by omega)
    refine ⟨out, its', ?_, by omega, ?_, ?_, ?_, ?_⟩
    · rw [packLoop, disps_ok, Outcome.bind_ok]
      unfold readIter
      rw [if_pos hr, Outcome.bind_ok]
      simp only
      rw [e1, Outcome.bind_ok, e2]
    · intro r' hr'
      rcases List.mem_cons.mp hr' with h | h
      · subst h
        rw [k2 r' hnd.1, Function.update_self]
      · have hne : r' ≠ r := fun h' => hnd.1 (h' ▸ h)
        rw [d2 r' h, Function.update_of_ne hne]
    · intro r' hr'
      have hne : r' ≠ r := fun h => hr' (by simp [h])
      rw [k2 r' (fun h => hr' (by simp [h])), Function.update_of_ne hne]
    · intro r' hr' p hp
      rcases List.mem_cons.mp hr' with h | h
      · subst h
        rw [o2 r' hnd.1 p hp, hg1, if_pos (by omega)]
        congr 1; omega
      · have hne : r' ≠ r := fun h' => hnd.1 (h' ▸ h)
        rw [w2 r' h p hp, Function.update_of_ne hne]
    · intro r' hr' p hp
      have hne : r' ≠ r := fun h => hr' (by simp [h])
      rw [o2 r' (fun h => hr' (by simp [h])) p hp, hg1, if_neg]
      have := offOf_disjoint c hne
      omega

theorem alltoallvLoop_ok {P : Nat} (r : Fin P) (sendBuf : Fin P → List α)
    (sc : Fin P → Fin P → Nat) (chunk : Fin P → List α)
    (hlen : ∀ s, (chunk s).length = sc s r)
    (hbuf : ∀ s, (List.ofFn (sc s)).sum ≤ (sendBuf s).length)
    (hsend : ∀ s p, p < sc s r → (sendBuf s)[offOf (sc s) r + p]? = (chunk s)[p]?) :
    ∀ (ss : List (Fin P)) (buf : List α), ss.Nodup →
    (List.ofFn (fun s => sc s r)).sum ≤ buf.length →
    ∃ out, alltoallvLoop r sendBuf sc (fun s => sc s r) ss buf = .ok out ∧ out.length = buf.length ∧
      (∀ s ∈ ss, ∀ p, p < sc s r → out[offOf (fun s => sc s r) s + p]? = (chunk s)[p]?) ∧
      (∀ s, s ∉ ss → ∀ p, p < sc s r →
        out[offOf (fun s => sc s r) s + p]? = buf[offOf (fun s => sc s r) s + p]?) := by
  intro ss
  induction ss with
  | nil => intro buf _ _; exact ⟨buf, rfl, rfl, by simp, fun _ _ _ _ => rfl⟩
  | cons s ss ih =>
    intro buf hnd htot
    rw [List.nodup_cons] at hnd
    have hoff := offOf_le_total (fun s => sc s r) s
    have hoffS := offOf_le_total (sc s) r
    have hb := hbuf s
    have hsl : slice (sendBuf s) (offOf (sc s) r) (sc s r) = .ok (chunk s) :=
      slice_of_get _ _ _ _ (hlen s) (by omega) (hsend s)
    have hl := hlen s
    obtain ⟨b1, e1⟩ := writeAt_ok buf (chunk s) (offOf (fun s => sc s r) s) (by omega)
    obtain ⟨_, hl1, hg1⟩ := writeAt_get _ _ _ _ e1
    obtain ⟨out, e2, l2, w2, o2⟩ := ih b1 hnd.2 (by omega)
    refine ⟨out, ?_, by omega, ?_, ?_⟩
    · rw [alltoallvLoop, disps_ok, Outcome.bind_ok, hsl, Outcome.bind_ok, disps_ok,
        Outcome.bind_ok, e1, Outcome.bind_ok, e2]
    · intro s' hs' p hp
      rcases List.mem_cons.mp hs' with h | h
      · subst h
        rw [o2 s' hnd.1 p hp, hg1, if_pos (by omega)]
        congr 1; omega
      · exact w2 s' h p hp
    · intro s' hs' p hp
      have hne : s' ≠ s := fun h => hs' (by simp [h])
      rw [o2 s' (fun h => hs' (by simp [h])) p hp, hg1, if_neg]
      have := offOf_disjoint (fun s => sc s r) hne
      omega

theorem unpackLoop_ok {P : Nat} (rc : Fin P → Nat) (buf : List α) (chunk : Fin P → List α)
    (hlen : ∀ s, (chunk s).length = rc s) (htot : (List.ofFn rc).sum ≤ buf.length)
    (hbuf : ∀ s p, p < rc s → buf[offOf rc s + p]? = (chunk s)[p]?) :
    ∀ (ss : List (Fin P)) (outs : Fin P → List α), ss.Nodup →
    ∃ outs', unpackLoop rc buf ss outs = .ok outs' ∧
      (∀ s ∈ ss, outs' s = outs s ++ chunk s) ∧ (∀ s, s ∉ ss → outs' s = outs s) := by
  intro ss
  induction ss with
  | nil => intro outs _; exact ⟨outs, rfl, by simp, fun _ _ => rfl⟩
  | cons s ss ih =>
    intro outs hnd
    rw [List.nodup_cons] at hnd
    have hoff := offOf_le_total rc s
    have hsl : slice buf (offOf rc s) (rc s) = .ok (chunk s) :=
      slice_of_get _ _ _ _ (hlen s) (by omega) (hbuf s)
    obtain ⟨outs', e, h1, h2⟩ := ih (Function.update outs s (outs s ++ chunk s)) hnd.2
    refine ⟨outs', ?_, ?_, ?_⟩
    · rw [unpackLoop, disps_ok, Outcome.bind_ok, hsl, Outcome.bind_ok, e]
    · intro s' hs'
      rcases List.mem_cons.mp hs' with h | h
      · subst h; rw [h2 s' hnd.1, Function.update_self]
      · have hne : s' ≠ s := fun h' => hnd.1 (h' ▸ h)
        rw [h1 s' h, Function.update_of_ne hne]
    · intro s' hs'
      have hne : s' ≠ s := fun h => hs' (by simp [h])
      rw [h2 s' (fun h => hs' (by simp [h])), Function.update_of_ne hne]

/-- One pass moves `sc s r` elements from each sender `s` to each receiver `r`. -/
theorem a2aStep_ok {P : Nat} (fill : α) (bufSize : Nat) (rem : Fin P → Fin P → Nat) (iloop : Nat)
    (st : A2AState α P) (sc : Fin P → Fin P → Nat)
    (hsc : ∀ s r, sc s r = if iloop = rem s r then st.sendCounts s r - 1 else st.sendCounts s r)
    (hlen : ∀ s r, sc s r ≤ (st.its s r).length)
    (hbuf : ∀ s, ∑ r, sc s r ≤ bufSize) (hint : ∀ r, ∑ s, sc s r < 2 ^ 31) :
    a2aStep fill bufSize rem iloop st = .ok ⟨fun s r => (st.its s r).drop (sc s r), sc,
      fun r s => st.outs r s ++ (st.its s r).take (sc s r)⟩ := by
  have hsc' : (fun s r => if iloop = rem s r then st.sendCounts s r - 1 else st.sendCounts s r)
      = sc := by funext s r; exact (hsc s r).symm
  have hmem : ∀ r : Fin P, r ∈ List.finRange P := List.mem_finRange
  have hnd : (List.finRange P).Nodup := List.nodup_finRange P
  have hpack : ∀ s, ∃ q : List α × (Fin P → List α),
      packLoop (sc s) (List.finRange P) (List.replicate bufSize fill) (st.its s) = .ok q ∧
      q.1.length = bufSize ∧ (∀ r, q.2 r = (st.its s r).drop (sc s r)) ∧
      (∀ r p, p < sc s r → q.1[offOf (sc s) r + p]? = ((st.its s r).take (sc s r))[p]?) := by
    intro s
    obtain ⟨out, its', e, l, d, _, w, _⟩ := packLoop_ok (sc s) (List.finRange P)
      (List.replicate bufSize fill) (st.its s) hnd (fun r _ => hlen s r)
      (by rw [List.sum_ofFn]; simpa using hbuf s)
    exact ⟨(out, its'), e, by simpa using l, fun r => d r (hmem r), fun r p hp => w r (hmem r) p hp⟩
  choose packed hp1 hp2 hp3 hp4 using hpack
  have hrecv : ∀ r, ∃ b : List α,
      alltoallvLoop r (fun s => (packed s).1) sc (fun s => sc s r) (List.finRange P)
        (List.replicate (∑ s, sc s r) fill) = .ok b ∧ b.length = ∑ s, sc s r ∧
      (∀ s p, p < sc s r → b[offOf (fun s => sc s r) s + p]? = ((st.its s r).take (sc s r))[p]?) := by
    intro r
    obtain ⟨out, e, l, w, _⟩ := alltoallvLoop_ok r (fun s => (packed s).1) sc
      (fun s => (st.its s r).take (sc s r)) (fun s => by simp; exact hlen s r)
      (fun s => by rw [List.sum_ofFn, hp2]; exact hbuf s) (fun s p hp => hp4 s r p hp)
      (List.finRange P) (List.replicate (∑ s, sc s r) fill) hnd
      (by rw [List.sum_ofFn]; simp)
    exact ⟨out, e, by simpa using l, fun s p hp => w s (hmem s) p hp⟩
  choose bufs hb1 hb2 hb3 using hrecv
  have hout : ∀ r, unpackLoop (fun s => sc s r) (bufs r) (List.finRange P) (st.outs r)
      = .ok (fun s => st.outs r s ++ (st.its s r).take (sc s r)) := by
    intro r
    obtain ⟨outs', e, h1, _⟩ := unpackLoop_ok (fun s => sc s r) (bufs r)
      (fun s => (st.its s r).take (sc s r)) (fun s => by simp; exact hlen s r)
      (by rw [List.sum_ofFn, hb2]) (fun s p hp => hb3 r s p hp) (List.finRange P) (st.outs r) hnd
    rw [e]
    congr 1
    funext s
    exact h1 s (hmem s)
  unfold a2aStep
  rw [hsc']
  unfold a2aTransfer
  rw [allRanks_ok _ (fun r => ∑ s, sc s r) (fun r => by
    rw [total_ok]; unfold fitsInt; rw [if_pos (hint r)]), Outcome.bind_ok,
    allRanks_ok _ packed hp1, Outcome.bind_ok, allRanks_ok _ bufs hb1, Outcome.bind_ok,
    allRanks_ok _ _ hout, Outcome.bind_ok]
  congr 2
  funext s r
  exact hp3 s r

/-- The loop over passes. -/
theorem a2aLoop_ok {P : Nat} (fill : α) (bufSize N : Nat) (hN : 0 < N) (cnt : Fin P → Fin P → Nat)
    (inp : Fin P → Fin P → List α) (hlen : ∀ s r, cnt s r ≤ (inp s r).length)
    (hbuf : ∀ s, ∑ r, (cnt s r / N + 1) ≤ bufSize) (hint : ∀ r, ∑ s, (cnt s r / N + 1) < 2 ^ 31) :
    ∀ (n i : Nat) (st : A2AState α P), i + n = N →
    (∀ s r, st.its s r = (inp s r).drop (i * (cnt s r / N) + min i (cnt s r % N))) →
    (∀ s r, st.sendCounts s r = cnt s r / N + if i ≤ cnt s r % N then 1 else 0) →
    (∀ s r, st.outs r s = (inp s r).take (i * (cnt s r / N) + min i (cnt s r % N))) →
    ∃ st', a2aLoop fill bufSize (fun s r => cnt s r % N) n i st = .ok st' ∧
      ∀ s r, st'.outs r s = (inp s r).take (cnt s r) := by
  intro n
  induction n with
  | zero =>
    intro i st hi h1 h2 h3
    have hiN : i = N := by omega
    subst hiN
    refine ⟨st, rfl, fun s r => ?_⟩
    rw [h3]
    congr 1
    have := Nat.div_add_mod (cnt s r) i
    have hm := Nat.mod_lt (cnt s r) hN
    omega
  | succ n ih =>
    intro i st hi h1 h2 h3
    let sc : Fin P → Fin P → Nat := fun s r => cnt s r / N + if i < cnt s r % N then 1 else 0
    have hscle : ∀ s r, sc s r ≤ cnt s r / N + 1 := by intro s r; simp only [sc]; split <;> omega
    have hprog : ∀ s r, i * (cnt s r / N) + min i (cnt s r % N) + sc s r
        = (i+1) * (cnt s r / N) + min (i+1) (cnt s r % N) := by
      intro s r
      simp only [sc]
      rw [Nat.succ_mul]
      generalize cnt s r / N = q
      generalize cnt s r % N = m
      split <;> omega
    have hbound : ∀ s r, (i+1) * (cnt s r / N) + min (i+1) (cnt s r % N) ≤ cnt s r := by
      intro s r
      have hdm := Nat.div_add_mod (cnt s r) N
      have : (i+1) * (cnt s r / N) ≤ N * (cnt s r / N) := Nat.mul_le_mul_right _ (by omega)
      omega
    have hstep := a2aStep_ok fill bufSize (fun s r => cnt s r % N) i st sc (by
        intro s r
        rw [h2]
        simp only [sc]
        generalize cnt s r / N = q
        generalize cnt s r % N = m
        split_ifs <;> omega)
      (by
        intro s r
        rw [h1, List.length_drop]
        have a1 := hprog s r
        have a2 := hbound s r
        have a3 := hlen s r
        omega)
      (fun s => le_trans (Finset.sum_le_sum (fun r _ => hscle s r)) (hbuf s))
      (fun r => lt_of_le_of_lt (Finset.sum_le_sum (fun s _ => hscle s r)) (hint r))
    rw [a2aLoop, hstep, Outcome.bind_ok]
    apply ih (i+1) _ (by omega)
    · intro s r
      simp only
      rw [h1, List.drop_drop, hprog]
    · intro s r
      simp only [sc]
      congr 1
    · intro s r
      simp only
      rw [h3, h1, ← hprog]
      exact List.take_add.symm

theorem foldl_max_le (l : List Nat) (a : Nat) : a ≤ l.foldl max a ∧ ∀ x ∈ l, x ≤ l.foldl max a := by
  induction l generalizing a with
  | nil => simp
  | cons y l ih =>
    simp only [List.foldl_cons]
    obtain ⟨h1, h2⟩ := ih (max a y)
    refine ⟨le_trans (le_max_left _ _) h1, fun x hx => ?_⟩
    rcases List.mem_cons.mp hx with h | h
    · subst h; exact le_trans (le_max_right _ _) h1
    · exact h2 x h

theorem le_ceilDiv_mul (n c : Nat) (hc : 0 < c) : n ≤ ceilDiv n c * c := by
  unfold ceilDiv
  have := Nat.div_add_mod (n + c - 1) c
  have h2 := Nat.mod_lt (n + c - 1) hc
  rw [Nat.mul_comm] at this
  omega

end HBT
