import Verif.Lemmas.Mpi
/-!
# C11–C13: transport between ranks
-/
namespace HBT.Props
open HBT HBT.Model
variable {α : Type}

theorem foldl_max_const (l : List Nat) (c : Nat) (h : ∀ x ∈ l, x = c) (a : Nat) (ha : a ≤ c)
    (hne : l ≠ []) : l.foldl max a = c := by
  induction l generalizing a with
  | nil => simp at hne
  | cons y l ih =>
    simp only [List.foldl_cons]
    have hy := h y (by simp)
    subst hy
    rw [max_eq_right ha]
    by_cases hl : l = []
    · simp [hl]
    · exact ih (fun x hx => h x (by simp [hx])) y (le_refl _) hl

/-! ## C11 -/

/-- C11. For every number of ranks `P`, chunk size (with `P*(chunksize+1)` below 2^31, so that
message counts fit in an `int`), per-pair counts and input sequences long enough for the counts,
the exchange terminates without error and receiver `r` gets from sender `s` exactly the first
`counts s r` elements of the sequence `s` holds for `r`, in order. -/
theorem C11_alltoall {P : Nat} (fill : α) (chunksize : Nat) (hc : 0 < chunksize)
    (hP : P * (chunksize + 1) < 2 ^ 31) (its : Fin P → Fin P → List α)
    (counts : Fin P → Fin P → Nat) (hlen : ∀ s r, counts s r ≤ (its s r).length) :
    myAllToAll fill chunksize its counts = .ok (fun r s => (its s r).take (counts s r)) := by
  unfold myAllToAll
  set N := numLoops chunksize counts with hN
  have hsum : ∀ s, ∑ r, counts s r ≤ N * chunksize := by
    intro s
    have h1 := le_ceilDiv_mul (List.ofFn (counts s)).sum chunksize hc
    have h2 : ceilDiv (List.ofFn (counts s)).sum chunksize ≤ N := by
      rw [hN]
      unfold numLoops
      exact (foldl_max_le _ 0).2 _ (List.mem_map.mpr ⟨s, List.mem_finRange s, rfl⟩)
    rw [List.sum_ofFn] at h1 h2
    exact le_trans h1 (Nat.mul_le_mul_right _ h2)
  have hone : ∀ s r, counts s r ≤ N * chunksize := fun s r =>
    le_trans (Finset.single_le_sum (f := fun r => counts s r) (fun _ _ => Nat.zero_le _)
      (Finset.mem_univ r)) (hsum s)
  simp only
  split
  · rename_i h0
    congr 1
    funext r s
    have := hone s r
    rw [h0] at this
    have : counts s r = 0 := by omega
    simp [this]
  · rename_i h0
    have hN0 : 0 < N := Nat.pos_of_ne_zero h0
    have hbuf : ∀ s, ∑ r, (counts s r / N + 1) ≤ chunksize + P := by
      intro s
      rw [Finset.sum_add_distrib]
      have : (∑ r, counts s r / N) ≤ chunksize := by
        have h1 : (∑ r, counts s r / N) * N ≤ chunksize * N := by
          rw [Finset.sum_mul]
          calc ∑ r, counts s r / N * N ≤ ∑ r, counts s r :=
                Finset.sum_le_sum (fun r _ => Nat.div_mul_le_self _ _)
            _ ≤ N * chunksize := hsum s
            _ = chunksize * N := Nat.mul_comm _ _
        exact Nat.le_of_mul_le_mul_right h1 hN0
      simpa using this
    have hint : ∀ r, ∑ s, (counts s r / N + 1) < 2 ^ 31 := by
      intro r
      have hle : ∀ s, counts s r / N + 1 ≤ chunksize + 1 := by
        intro s
        have : counts s r / N ≤ chunksize := by
          apply Nat.div_le_of_le_mul; exact hone s r
        omega
      calc ∑ s, (counts s r / N + 1) ≤ ∑ _s : Fin P, (chunksize + 1) :=
            Finset.sum_le_sum (fun s _ => hle s)
        _ = P * (chunksize + 1) := by simp
        _ < 2 ^ 31 := hP
    obtain ⟨st', e, hout⟩ := a2aLoop_ok fill (chunksize + P) N hN0 counts its hlen hbuf hint N 0
      ⟨its, fun s r => counts s r / N + 1, fun _ _ => []⟩ (by omega)
      (by intro s r; simp) (by intro s r; simp) (by intro s r; simp)
    rw [e, Outcome.bind_ok]
    congr 1
    funext r s
    exact hout s r

/-- C11 with the chunk size of the code: correct for up to 2047 ranks. -/
theorem C11_alltoall_code {P : Nat} (hP : P ≤ 2047) (fill : α) (its : Fin P → Fin P → List α)
    (counts : Fin P → Fin P → Nat) (hlen : ∀ s r, counts s r ≤ (its s r).length) :
    myAllToAll fill (1024 * 1024) its counts = .ok (fun r s => (its s r).take (counts s r)) :=
  C11_alltoall fill (1024 * 1024) (by decide) (by omega) its counts hlen

/-- Finding: the rank limit is real. With `P*chunksize ≥ 2^31` (2048 ranks in the code) and every
rank sending one full chunk to rank 0, the `int` receive total overflows. -/
theorem C11_receive_total_overflow {P : Nat} (fill : α) (chunksize : Nat) (hc : 0 < chunksize)
    (hP : 2 ^ 31 ≤ (P + 1) * chunksize) (its : Fin (P+1) → Fin (P+1) → List α) :
    myAllToAll fill chunksize its (fun _ r => if r = 0 then chunksize else 0) = .ub := by
  have hsum : (List.ofFn (fun r : Fin (P+1) => if r = 0 then chunksize else 0)).sum = chunksize := by
    rw [List.sum_ofFn]; simp
  have hcd : ceilDiv chunksize chunksize = 1 := by
    unfold ceilDiv
    rw [Nat.div_eq_iff hc]; omega
  have hN : numLoops chunksize (fun _ r : Fin (P+1) => if r = 0 then chunksize else 0) = 1 := by
    unfold numLoops
    apply foldl_max_const
    · intro x hx
      rw [List.mem_map] at hx
      obtain ⟨s, _, rfl⟩ := hx
      simp only [hsum, hcd]
    · omega
    · simp [List.finRange_succ]
  unfold myAllToAll
  simp only [hN]
  rw [if_neg (by decide), a2aLoop, a2aStep, a2aTransfer, allRanks_ub_zero]
  · rfl
  · rw [total_ok]
    unfold fitsInt
    rw [if_neg]
    simp [Nat.mod_one]
    omega

/-- Three ranks, chunk size 2, so three passes. -/
example : myAllToAll (P := 3) 0 2
      (fun s r => [s.val * 100 + r.val * 10, s.val * 100 + r.val * 10 + 1, 7])
      (fun s r => if s = r then 0 else if s = 0 then 3 else 1)
    = .ok (fun r s => if s = r then [] else if s = 0 then [r.val * 10, r.val * 10 + 1, 7]
        else [s.val * 100 + r.val * 10]) := by
  rw [C11_alltoall 0 2 (by decide) (by decide) _ _ (by decide)]
  congr 1
  funext r s
  revert r s
  decide

/-! ## C12 -/

theorem bcastLoop_ok {P : Nat} (N q m : Nat) (inp : List α)
    (hlen : N * q + m ≤ inp.length) (hm : m < N) :
    ∀ (n i b : Nat) (it : List α) (outs : Fin P → List α), i + n = N →
    (b = q + if i ≤ m then 1 else 0) → it = inp.drop (i * q + min i m) →
    (∀ r, outs r = inp.take (i * q + min i m)) →
    bcastLoop m n i b it outs = .ok (fun _ => inp.take (N * q + m)) := by
  intro n
  induction n with
  | zero =>
    intro i b it outs hi hb hit hout
    have : i = N := by omega
    subst this
    rw [bcastLoop]
    congr 1
    funext r
    rw [hout, min_eq_right (by omega)]
  | succ n ih =>
    intro i b it outs hi hb hit hout
    have hb' : (if i = m then b - 1 else b) = q + if i < m then 1 else 0 := by
      rw [hb]; split_ifs <;> omega
    have hprog : i * q + min i m + (q + if i < m then 1 else 0) = (i+1) * q + min (i+1) m := by
      rw [Nat.succ_mul]; split <;> omega
    have hbound : (i+1) * q + min (i+1) m ≤ inp.length := by
      have : (i+1) * q ≤ N * q := Nat.mul_le_mul_right _ (by omega)
      omega
    rw [bcastLoop]
    simp only [hb']
    unfold readIter
    rw [if_pos (by rw [hit, List.length_drop]; omega), Outcome.bind_ok]
    simp only
    apply ih (i+1) _ _ _ (by omega)
    · rfl
    · rw [hit, List.drop_drop, hprog]
    · intro r
      rw [hout, hit, ← hprog]
      exact List.take_add.symm

/-- C12. For every number of ranks, root, chunk size, count and root sequence holding at least
that many elements, whatever the ranks' previous counts: afterwards every rank knows the root's
count and has written the first `count` elements of the root's sequence, in order. -/
theorem C12_bcast {P : Nat} (chunksize : Nat) (hc : 0 < chunksize) (root : Fin P)
    (counts : Fin P → Nat) (it : List α) (hlen : counts root ≤ it.length) :
    myBcast chunksize root counts it
      = .ok (fun _ => counts root, fun _ => it.take (counts root)) := by
  unfold myBcast
  simp only
  have hle := le_ceilDiv_mul (counts root) chunksize hc
  split
  · rename_i h0
    rw [h0] at hle
    have : counts root = 0 := by omega
    congr 1
    rw [this]; simp
  · rename_i h0
    set N := ceilDiv (counts root) chunksize
    have hN : 0 < N := Nat.pos_of_ne_zero h0
    have hdm := Nat.div_add_mod (counts root) N
    rw [bcastLoop_ok N (counts root / N) (counts root % N) it (by omega) (Nat.mod_lt _ hN) N 0
      (counts root / N + 1) it (fun _ => []) (by omega) (by simp) (by simp) (by simp), Outcome.bind_ok,
      hdm]

/-- C12, message size: each pass carries at most `chunksize + 1` elements, so message counts fit
in an `int` for every total count. -/
theorem C12_message_size (chunksize count : Nat) (hc : 0 < chunksize) :
    count / ceilDiv count chunksize + 1 ≤ chunksize + 1 := by
  have hle := le_ceilDiv_mul count chunksize hc
  have : count / ceilDiv count chunksize ≤ chunksize := Nat.div_le_of_le_mul hle
  omega

example : myBcast (P := 3) 2 1 (fun r => r.val + 4) [10, 11, 12, 13, 14, 15]
    = .ok (fun _ => 5, fun _ => [10, 11, 12, 13, 14]) :=
  C12_bcast 2 (by decide) 1 _ _ (by decide)

/-! ## C13 -/

theorem sizeToInt_small (n : Nat) (h : n < 2 ^ 31) : sizeToInt n = n := by
  unfold sizeToInt
  rw [BitVec.toInt_eq_toNat_of_lt]
  · simp; omega
  · simp; omega

/-- C13, containers. For every root and every container of fewer than 2^31-1 elements, after the
call every rank holds the root's container. -/
theorem C13_sync_container {P : Nat} (root : Fin P) (x : Fin P → List α)
    (h : (x root).length < 2 ^ 31 - 1) : syncContainer root x = .ok (fun _ => x root) := by
  unfold syncContainer
  simp only [sizeToInt_small _ (show (x root).length < 2 ^ 31 by omega)]
  rw [if_neg (by omega), if_neg (by omega)]
  congr 1
  funext r
  split
  · rfl
  · simp

/-- C13, sizes from 2^31-1 up to 2^32-1 stop the program. -/
theorem C13_oversize_stops {P : Nat} (root : Fin P) (x : Fin P → List α)
    (h1 : 2 ^ 31 - 1 ≤ (x root).length) (h2 : (x root).length < 2 ^ 32) :
    syncContainer root x = .abort := by
  unfold syncContainer
  simp only
  by_cases h : (x root).length < 2 ^ 31
  · rw [sizeToInt_small _ h, if_pos (by omega)]
  · have hneg : sizeToInt (x root).length < 0 := by
      unfold sizeToInt
      rw [BitVec.toInt_eq_toNat_cond]
      simp only [BitVec.toNat_ofNat]
      rw [Nat.mod_eq_of_lt (by omega), if_neg (by omega)]
      omega
    rw [if_neg (by omega), if_pos hneg]

/-- Finding: the guard against oversized containers tests the value after conversion to `int`.
A container of `2^32 + k` elements passes it and the other ranks receive `k` elements only. -/
theorem C13_guard_bypassed {P : Nat} (root : Fin P) (x : Fin P → List α) (k : Nat)
    (hk : k < 2 ^ 31 - 1) (h : (x root).length = 2 ^ 32 + k) :
    syncContainer root x = .ok (fun r => if r = root then x root else (x root).take k) := by
  have hlen : sizeToInt (x root).length = k := by
    rw [h, ← sizeToInt_small k (by omega)]
    unfold sizeToInt
    congr 1
    apply BitVec.eq_of_toNat_eq
    simp
  unfold syncContainer
  simp only [hlen]
  rw [if_neg (by omega), if_neg (by omega)]
  simp

example : ∃ x : Fin 2 → List Bool, (x 0).length = 2 ^ 32 + 5 :=
  ⟨fun _ => List.replicate (2 ^ 32 + 5) true, by rw [List.length_replicate]⟩

/-- C13, flag lists. -/
theorem C13_sync_bools {P : Nat} (root : Fin P) (x : Fin P → List Bool)
    (h : (x root).length < 2 ^ 31 - 1) : syncVectorBool root x = .ok (fun _ => x root) := by
  unfold syncVectorBool
  simp only
  rw [C13_sync_container root _ (by simpa using h), Outcome.bind_ok]
  congr 1
  funext r
  split
  · rename_i hr; rw [hr]
  · simp only [if_true, List.map_map]
    conv_rhs => rw [← List.map_id (x root)]
    apply List.map_congr_left
    intro b _
    cases b <;> simp

theorem getlines_line (cur s rest : List Char) (hs : '\n' ∉ s) :
    getlines cur (s ++ '\n' :: rest) = (cur ++ s) :: getlines [] rest := by
  induction s generalizing cur with
  | nil => simp [getlines]
  | cons c s ih =>
    have hc : c ≠ '\n' := fun h => hs (by simp [h])
    have hs' : '\n' ∉ s := fun h => hs (by simp [h])
    rw [List.cons_append, getlines, if_neg hc, ih _ hs']
    simp

theorem getlines_join (xs : List (List Char)) (h : ∀ s ∈ xs, '\n' ∉ s) :
    getlines [] ((xs.map (fun s => s ++ ['\n'])).flatten) = xs := by
  induction xs with
  | nil => simp [getlines]
  | cons s xs ih =>
    simp only [List.map_cons, List.flatten_cons, List.append_assoc, List.singleton_append]
    rw [getlines_line [] s _ (h s (by simp)), ih (fun t ht => h t (by simp [ht]))]
    simp

/-- C13, name lists. For every list of strings without newline characters (empty strings
included), every rank ends up with the root's list. -/
theorem C13_sync_strings {P : Nat} (root : Fin P) (x : Fin P → List (List Char))
    (hnl : ∀ s ∈ x root, '\n' ∉ s)
    (h : ((x root).map (fun s => s ++ ['\n'])).flatten.length < 2 ^ 31 - 1) :
    syncVectorString root x = .ok (fun _ => x root) := by
  unfold syncVectorString
  simp only
  rw [C13_sync_container root _ (by simpa using h), Outcome.bind_ok]
  congr 1
  funext r
  split
  · rename_i hr; rw [hr]
  · simp only [if_true]
    exact getlines_join _ hnl

/-- A string holding a newline does not survive. -/
theorem C13_newline_splits :
    syncVectorString (P := 2) 0 (fun _ => [['a', '\n', 'b']])
      = .ok (fun r => if r = 0 then [['a', '\n', 'b']] else [['a'], ['b']]) := by
  unfold syncVectorString
  simp only
  rw [C13_sync_container _ _ (by decide), Outcome.bind_ok]
  congr 1

example : syncVectorString (P := 3) 0 (fun r => if r = 0 then [['a', 'b'], [], ['c']] else [['z']])
    = .ok (fun _ => [['a', 'b'], [], ['c']]) :=
  C13_sync_strings 0 _ (by decide) (by decide)

end HBT.Props
