import Verif.Spec.Bytes
import Verif.Model.Bytes
import Mathlib.Tactic.IntervalCases
/-!
# C05 (byte order) and C07 (Fortran records)
-/
namespace HBT.Props
open HBT HBT.Model HBT.Spec

theorem store_swap2 (le : Bool) (a b : Byte) :
    store16 le (swap2 (load16 le a b)) = [b, a] := by
  cases le <;>
  · simp only [store16, load16, if_true, Bool.false_eq_true, if_false, List.cons.injEq, and_true]
    constructor <;>
    · apply BitVec.eq_of_getLsbD_eq
      intro i hi
      interval_cases i <;> simp [swap2]

theorem store_swap4 (le : Bool) (a b c d : Byte) :
    store32 le (swap4 (load32 le a b c d)) = [d, c, b, a] := by
  cases le <;>
  · simp only [store32, load32, if_true, Bool.false_eq_true, if_false, List.cons.injEq, and_true]
    refine ⟨?_, ?_, ?_, ?_⟩ <;>
    · apply BitVec.eq_of_getLsbD_eq
      intro i hi
      interval_cases i <;> simp [swap4]

theorem reverseCopy_eq (e : List Byte) : reverseCopy e = e.reverse := by
  apply List.ext_getElem
  · simp [reverseCopy]
  · intro i h1 h2
    simp only [reverseCopy, List.getElem_ofFn, List.getElem_reverse]
    congr 1
    omega

theorem swapElement_eq (le : Bool) (m : Nat) (e : List Byte) (h : e.length = m) :
    swapElement le m e = e.reverse := by
  unfold swapElement
  split
  · match e, h with
    | [a], _ => rfl
  · simp [store_swap2]
  · simp [store_swap4]
  · exact reverseCopy_eq e

theorem swapNbyte_spec (le : Bool) (data : List Byte) (nel m : Nat) (h : nel * m ≤ data.length) :
    ∃ out, swapNbyte le data nel m = .ok out ∧ ElementsReversed data out nel m := by
  induction nel generalizing data with
  | zero => exact ⟨data, rfl, rfl, fun j i hj => by omega, fun p _ => rfl⟩
  | succ n ih =>
    rw [Nat.succ_mul] at h
    obtain ⟨out, hout, hlen, hin, hrest⟩ := ih (data.drop m) (by simp; omega)
    have htl : (data.take m).length = m := by simp; omega
    refine ⟨(data.take m).reverse ++ out, ?_, ?_, ?_, ?_⟩
    · rw [swapNbyte, if_neg (by omega), hout, swapElement_eq le m _ htl]; rfl
    · simp [hlen]; omega
    · intro j i hj hi
      cases j with
      | zero =>
        simp only [Nat.zero_mul, Nat.zero_add]
        rw [List.getElem?_append_left (by simp; omega), List.getElem?_reverse (by omega)]
        rw [htl, List.getElem?_take_of_lt (by omega)]
      | succ j =>
        rw [List.getElem?_append_right (by simp [Nat.succ_mul]; omega)]
        have e1 : (j+1)*m + i - (data.take m).reverse.length = j*m+i := by
          rw [List.length_reverse, htl, Nat.succ_mul]; omega
        rw [e1, hin j i (by omega) hi, List.getElem?_drop]
        congr 1
        rw [Nat.succ_mul]; omega
    · intro p hp
      rw [Nat.succ_mul] at hp
      rw [List.getElem?_append_right (by simp; omega), List.length_reverse, htl,
        hrest _ (by omega), List.getElem?_drop]
      congr 1; omega

/-- C05. On a host of either byte order, for every element size `m` and count `nel`, and every
buffer holding that many elements, the call succeeds and reverses the bytes of each element,
leaving all other bytes alone. -/
theorem C05_reverses (le : Bool) (data : List Byte) (nel m : Nat) (h : nel * m ≤ data.length) :
    ∃ out, swapNbyte le data nel m = .ok out ∧ ElementsReversed data out nel m :=
  swapNbyte_spec le data nel m h

/-- C05, involution: swapping twice restores the buffer. -/
theorem C05_involution (le : Bool) (data out : List Byte) (nel m : Nat)
    (hfit : nel * m ≤ data.length) (hout : swapNbyte le data nel m = .ok out) :
    swapNbyte le out nel m = .ok data := by
  obtain ⟨o1, h1, hl1, ha1, hb1⟩ := swapNbyte_spec le data nel m hfit
  rw [hout] at h1
  cases h1
  obtain ⟨o2, h2, hl2, ha2, hb2⟩ := swapNbyte_spec le out nel m (by omega)
  rw [h2]
  congr 1
  apply List.ext_getElem?
  intro p
  rcases Nat.lt_or_ge p (nel * m) with hp | hp
  · have hm : 0 < m := by
      rcases Nat.eq_zero_or_pos m with h0 | h0
      · subst h0; omega
      · exact h0
    have hj : p / m < nel := Nat.div_lt_of_lt_mul (by rw [Nat.mul_comm]; exact hp)
    have hi : p % m < m := Nat.mod_lt _ hm
    have hpe : p = p / m * m + p % m := by
      rw [Nat.mul_comm]; exact (Nat.div_add_mod p m).symm
    rw [hpe, ha2 _ _ hj hi, ha1 _ _ hj (by omega)]
    congr 1; omega
  · rw [hb2 p hp, hb1 p hp]

/-- C05, out-of-bounds elements are reported as undefined behaviour, never silently accepted. -/
theorem C05_overrun (le : Bool) (data : List Byte) (nel m : Nat) (h : data.length < nel * m) :
    swapNbyte le data nel m = .ub := by
  induction nel generalizing data with
  | zero => omega
  | succ n ih =>
    rw [swapNbyte]
    split
    · rfl
    · rw [ih (data.drop m) (by rw [Nat.succ_mul] at h; simp; omega)]; rfl

example : swapNbyte true [1, 2, 3, 4, 5, 6, 7, 8, 9] 2 4 = .ok [4, 3, 2, 1, 8, 7, 6, 5, 9] := by
  decide
example : swapNbyte false [1, 2, 3, 4, 5, 6, 7, 8] 1 8 = .ok [8, 7, 6, 5, 4, 3, 2, 1] := by
  decide

/-! ## C07 -/

theorem load32_bytes32 (le : Bool) (x : BitVec 32) :
    ∃ a b c d, bytes32 le x = [a, b, c, d] ∧ load32 le a b c d = x := by
  cases le
  · refine ⟨_, _, _, _, rfl, ?_⟩
    apply BitVec.eq_of_getLsbD_eq
    intro i hi
    interval_cases i <;> simp [load32]
  · refine ⟨_, _, _, _, rfl, ?_⟩
    apply BitVec.eq_of_getLsbD_eq
    intro i hi
    interval_cases i <;> simp [load32]

theorem bytes32_not (le : Bool) (x : BitVec 32) : bytes32 (!le) x = (bytes32 le x).reverse := by
  cases le <;> simp [bytes32]

theorem bytes32_length (le : Bool) (x : BitVec 32) : (bytes32 le x).length = 4 := by
  cases le <;> simp [bytes32]

/-- Reading a marker written in byte order `fe` on a host of byte order `le`. -/
theorem readBlockSize_ok (le fe : Bool) (x : BitVec 32) (f : File)
    (h : (f.content.drop f.pos).take 4 = bytes32 fe x) :
    readBlockSize le f (fe != le) = .ok (x.toInt, { f with pos := f.pos + 4 }) := by
  have hread : f.read 4 = (bytes32 fe x, { f with pos := f.pos + 4 }) := by
    simp [File.read, h, bytes32_length]
  obtain ⟨a, b, c, d, hb, hl⟩ := load32_bytes32 le x
  unfold readBlockSize
  simp only [hread]
  rcases Bool.eq_or_eq_not fe le with he | he
  · subst he
    simp [hb, hl]
  · subst he
    rw [bytes32_not, hb]
    have hsw : swapNbyte le [d, c, b, a] 1 4 = .ok [a, b, c, d] := by
      simp [swapNbyte, swapElement, store_swap4]
    simp [hsw, hl]

theorem take_drop_middle {α : Type} (a b c : List α) (n m : Nat) (ha : a.length = n)
    (hb : b.length = m) : ((a ++ b ++ c).drop n).take m = b := by
  subst ha hb; simp

theorem toInt_ofNat_small (n : Nat) (h : n < 2 ^ 31) : (BitVec.ofNat 32 n).toInt = n := by
  rw [BitVec.toInt_eq_toNat_of_lt]
  · simp; omega
  · simp; omega

/-- C07, one record. A file contains, at the current position, a record whose payload has fewer
than 2^31 bytes, written in byte order `fe`; the host has byte order `le` and the caller passes
`NeedByteSwap` accordingly. Reading `nRead` members of `msize` bytes after skipping `nSkip`
(all within the payload) delivers exactly the requested bytes, with the bytes of each member
reversed iff the byte orders differ, and leaves the file right after the record. -/
theorem C07_read_record (le fe : Bool) (pre payload post : List Byte) (msize nRead nSkip : Nat)
    (hlen : payload.length < 2 ^ 31) (hfit : (nSkip + nRead) * msize ≤ payload.length) :
    ∃ data, fortranRead le msize nRead nSkip
        ⟨pre ++ record fe payload ++ post, pre.length⟩ (fe != le)
          = .ok (data, ⟨pre ++ record fe payload ++ post, pre.length + (record fe payload).length⟩) ∧
      (if fe = le then data = (payload.drop (nSkip * msize)).take (nRead * msize)
       else ElementsReversed ((payload.drop (nSkip * msize)).take (nRead * msize)) data nRead msize) := by
  set M := bytes32 fe (BitVec.ofNat 32 payload.length) with hM
  have hMl : M.length = 4 := bytes32_length _ _
  set content := pre ++ record fe payload ++ post with hcontent
  have hc : content = pre ++ M ++ payload ++ M ++ post := by
    simp [hcontent, record, hM]
  have h1 : readBlockSize le ⟨content, pre.length⟩ (fe != le)
      = .ok ((payload.length : Int), ⟨content, pre.length + 4⟩) := by
    rw [readBlockSize_ok le fe (BitVec.ofNat 32 payload.length), toInt_ofNat_small _ hlen]
    show (content.drop pre.length).take 4 = M
    rw [hc]
    have : pre ++ M ++ payload ++ M ++ post = pre ++ M ++ (payload ++ M ++ post) := by simp
    rw [this]
    exact take_drop_middle _ _ _ _ _ rfl hMl
  rw [Nat.add_mul] at hfit
  have h2 : (File.mk content (pre.length + 4)).seekCur ((nSkip * msize : Nat) : Int)
      = ⟨content, pre.length + 4 + nSkip * msize⟩ := by
    unfold File.seekCur
    rw [if_neg (by simp only; omega)]
    simp only [File.mk.injEq, true_and]; omega
  set want := (payload.drop (nSkip * msize)).take (nRead * msize) with hwant
  have hwl : want.length = nRead * msize := by simp [hwant]; omega
  have hread : (File.mk content (pre.length + 4 + nSkip * msize)).read (msize * nRead)
      = (want, ⟨content, pre.length + 4 + nSkip * msize + nRead * msize⟩) := by
    have : (content.drop (pre.length + 4 + nSkip * msize)).take (msize * nRead) = want := by
      rw [hc, Nat.mul_comm msize nRead]
      have e : pre ++ M ++ payload ++ M ++ post = (pre ++ M) ++ (payload ++ (M ++ post)) := by simp
      rw [e, ← List.drop_drop, List.drop_left' (by simp [hMl]), List.drop_append_of_le_length (by omega),
        List.take_append_of_le_length (by simp; omega)]
    simp only [File.read, this, hwl]
  have h3 : ∃ data, freadSwap le (List.replicate (msize * nRead) 0#8) msize nRead
      ⟨content, pre.length + 4 + nSkip * msize⟩ (fe != le)
        = .ok (data, ⟨content, pre.length + 4 + nSkip * msize + nRead * msize⟩) ∧
      (if fe = le then data = want else ElementsReversed want data nRead msize) := by
    unfold freadSwap
    simp only [hread]
    have hrep : (List.replicate (msize * nRead) 0#8).drop want.length = [] := by
      simp [hwl, Nat.mul_comm]
    rw [hrep, List.append_nil]
    by_cases he : fe = le
    · subst he
      exact ⟨want, by simp, by simp⟩
    · obtain ⟨out, ho, hs⟩ := swapNbyte_spec le want nRead msize (by omega)
      refine ⟨out, ?_, by simp [he, hs]⟩
      have : (fe != le) = true := by simpa using he
      simp [this, ho]
  obtain ⟨data, hd, hprop⟩ := h3
  have h4 : (File.mk content (pre.length + 4 + nSkip * msize + nRead * msize)).seekCur
      ((payload.length : Int) - (((nSkip + nRead) * msize : Nat) : Int))
      = ⟨content, pre.length + 4 + payload.length⟩ := by
    unfold File.seekCur
    rw [Nat.add_mul]
    rw [if_neg (by simp only; omega)]
    simp only [File.mk.injEq, true_and]; omega
  have h5 : readBlockSize le ⟨content, pre.length + 4 + payload.length⟩ (fe != le)
      = .ok ((payload.length : Int), ⟨content, pre.length + 4 + payload.length + 4⟩) := by
    rw [readBlockSize_ok le fe (BitVec.ofNat 32 payload.length), toInt_ofNat_small _ hlen]
    show (content.drop (pre.length + 4 + payload.length)).take 4 = M
    rw [hc]
    exact take_drop_middle _ _ _ _ _ (by simp [hMl]; omega) hMl
  refine ⟨data, ?_, hprop⟩
  unfold fortranRead
  rw [h1, Outcome.bind_ok]
  simp only [h2]
  rw [hd, Outcome.bind_ok]
  simp only [h4]
  rw [h5, Outcome.bind_ok]
  simp only [if_true]
  congr 3
  simp [record, hMl, ← hM]; omega

/-- C07, skipping a record returns the payload length and stops right after the record. -/
theorem C07_skip_record (le fe : Bool) (pre payload post : List Byte)
    (hlen : payload.length < 2 ^ 31) :
    skipFortranBlock le ⟨pre ++ record fe payload ++ post, pre.length⟩ (fe != le)
      = .ok ((payload.length : Int),
          ⟨pre ++ record fe payload ++ post, pre.length + (record fe payload).length⟩) := by
  set M := bytes32 fe (BitVec.ofNat 32 payload.length) with hM
  have hMl : M.length = 4 := bytes32_length _ _
  set content := pre ++ record fe payload ++ post with hcontent
  have hc : content = pre ++ M ++ payload ++ M ++ post := by
    simp [hcontent, record, hM]
  have h1 : readBlockSize le ⟨content, pre.length⟩ (fe != le)
      = .ok ((payload.length : Int), ⟨content, pre.length + 4⟩) := by
    rw [readBlockSize_ok le fe (BitVec.ofNat 32 payload.length), toInt_ofNat_small _ hlen]
    show (content.drop pre.length).take 4 = M
    rw [hc]
    have : pre ++ M ++ payload ++ M ++ post = pre ++ M ++ (payload ++ M ++ post) := by simp
    rw [this]
    exact take_drop_middle _ _ _ _ _ rfl hMl
  have h4 : (File.mk content (pre.length + 4)).seekCur (payload.length : Int)
      = ⟨content, pre.length + 4 + payload.length⟩ := by
    unfold File.seekCur
    rw [if_neg (by simp only; omega)]
    simp only [File.mk.injEq, true_and]; omega
  have h5 : readBlockSize le ⟨content, pre.length + 4 + payload.length⟩ (fe != le)
      = .ok ((payload.length : Int), ⟨content, pre.length + 4 + payload.length + 4⟩) := by
    rw [readBlockSize_ok le fe (BitVec.ofNat 32 payload.length), toInt_ofNat_small _ hlen]
    show (content.drop (pre.length + 4 + payload.length)).take 4 = M
    rw [hc]
    exact take_drop_middle _ _ _ _ _ (by simp [hMl]; omega) hMl
  unfold skipFortranBlock
  rw [h1, Outcome.bind_ok]
  simp only [h4]
  rw [h5, Outcome.bind_ok]
  simp only [if_true]
  congr 3
  simp [record, hMl, ← hM]; omega

/-- Skip `k` records in a row. -/
def skipMany (le swap : Bool) : Nat → File → Outcome File
  | 0, f => .ok f
  | k + 1, f => do
    let (_, f) ← skipFortranBlock le f swap
    skipMany le swap k f

/-- C07, a whole file. In a file made of any number of records (each payload below 2^31 bytes),
after skipping the first `k` records, reading record `k` delivers the requested slice of that
record's payload. -/
theorem C07_sequence (le fe : Bool) (recs : List (List Byte)) (k : Nat) (hk : k < recs.length)
    (hlen : ∀ r ∈ recs, r.length < 2 ^ 31) (msize nRead nSkip : Nat)
    (hfit : (nSkip + nRead) * msize ≤ recs[k].length) (post : List Byte) :
    ∃ data, (do
        let f ← skipMany le (fe != le) k ⟨(recs.map (record fe)).flatten ++ post, 0⟩
        fortranRead le msize nRead nSkip f (fe != le))
      = .ok (data, ⟨(recs.map (record fe)).flatten ++ post,
          ((recs.take (k+1)).map (record fe)).flatten.length⟩) ∧
      (if fe = le then data = (recs[k].drop (nSkip * msize)).take (nRead * msize)
       else ElementsReversed ((recs[k].drop (nSkip * msize)).take (nRead * msize)) data
         nRead msize) := by
  have hskip : ∀ (j : Nat) (done : List Byte) (rs : List (List Byte)), j ≤ rs.length →
      (∀ r ∈ rs, r.length < 2 ^ 31) →
      skipMany le (fe != le) j ⟨done ++ (rs.map (record fe)).flatten ++ post, done.length⟩
        = .ok ⟨done ++ (rs.map (record fe)).flatten ++ post,
            (done ++ ((rs.take j).map (record fe)).flatten).length⟩ := by
    intro j
    induction j with
    | zero => intro done rs _ _; simp [skipMany]
    | succ j ih =>
      intro done rs hj hr
      match rs, hj, hr with
      | r :: rs, hj, hr =>
        have e : done ++ ((r :: rs).map (record fe)).flatten ++ post
            = done ++ record fe r ++ ((rs.map (record fe)).flatten ++ post) := by simp
        rw [skipMany, e, C07_skip_record le fe done r _ (hr r (by simp)), Outcome.bind_ok]
        simp only
        have e2 : done ++ record fe r ++ ((rs.map (record fe)).flatten ++ post)
            = (done ++ record fe r) ++ (rs.map (record fe)).flatten ++ post := by simp
        have := ih (done ++ record fe r) rs (by simpa using hj)
          (fun x hx => hr x (by simp [hx]))
        rw [e2]
        rw [List.length_append] at this
        rw [this]
        congr 2
        simp
  have hs := hskip k [] recs (by omega) hlen
  simp only [List.nil_append, List.length_nil] at hs
  rw [hs, Outcome.bind_ok]
  have e : (recs.map (record fe)).flatten ++ post
      = ((recs.take k).map (record fe)).flatten ++ record fe recs[k] ++
        (((recs.drop (k+1)).map (record fe)).flatten ++ post) := by
    conv_lhs => rw [← List.take_append_drop k recs, List.drop_eq_getElem_cons hk]
    simp only [List.map_append, List.map_cons, List.flatten_append, List.flatten_cons,
      List.append_assoc]
  obtain ⟨data, h1, h2⟩ := C07_read_record le fe ((recs.take k).map (record fe)).flatten
    recs[k] (((recs.drop (k+1)).map (record fe)).flatten ++ post) msize nRead nSkip
    (hlen _ (List.getElem_mem hk)) hfit
  refine ⟨data, ?_, h2⟩
  rw [e, h1]
  congr 3
  rw [List.take_succ_eq_append_getElem hk]
  simp only [List.map_append, List.map_cons, List.flatten_append, List.flatten_cons,
      List.length_append, List.map_nil, List.flatten_nil, List.length_nil]
  omega

/-- C07, damaged record: when the trailing marker differs from the leading one the program
stops (failed assertion) instead of returning data. -/
theorem C07_marker_mismatch (le fe : Bool) (pre payload post : List Byte) (x : BitVec 32)
    (msize nRead nSkip : Nat) (hlen : payload.length < 2 ^ 31)
    (hfit : (nSkip + nRead) * msize ≤ payload.length)
    (hx : x ≠ BitVec.ofNat 32 payload.length) :
    fortranRead le msize nRead nSkip
      ⟨pre ++ bytes32 fe (BitVec.ofNat 32 payload.length) ++ payload ++ bytes32 fe x ++ post,
        pre.length⟩ (fe != le) = .abort := by
  set M := bytes32 fe (BitVec.ofNat 32 payload.length) with hM
  have hMl : M.length = 4 := bytes32_length _ _
  set content := pre ++ M ++ payload ++ bytes32 fe x ++ post with hc
  have h1 : readBlockSize le ⟨content, pre.length⟩ (fe != le)
      = .ok ((payload.length : Int), ⟨content, pre.length + 4⟩) := by
    rw [readBlockSize_ok le fe (BitVec.ofNat 32 payload.length), toInt_ofNat_small _ hlen]
    show (content.drop pre.length).take 4 = M
    rw [hc]
    have : pre ++ M ++ payload ++ bytes32 fe x ++ post
        = pre ++ M ++ (payload ++ bytes32 fe x ++ post) := by simp
    rw [this]
    exact take_drop_middle _ _ _ _ _ rfl hMl
  rw [Nat.add_mul] at hfit
  have h2 : (File.mk content (pre.length + 4)).seekCur ((nSkip * msize : Nat) : Int)
      = ⟨content, pre.length + 4 + nSkip * msize⟩ := by
    unfold File.seekCur
    rw [if_neg (by simp only; omega)]
    simp only [File.mk.injEq, true_and]; omega
  have hgl : ((content.drop (pre.length + 4 + nSkip * msize)).take (msize * nRead)).length
      = nRead * msize := by
    simp [hc, hMl, Nat.mul_comm msize nRead]; omega
  have h3 : ∃ data, freadSwap le (List.replicate (msize * nRead) 0#8) msize nRead
      ⟨content, pre.length + 4 + nSkip * msize⟩ (fe != le)
        = .ok (data, ⟨content, pre.length + 4 + nSkip * msize + nRead * msize⟩) := by
    unfold freadSwap
    simp only [File.read, hgl]
    cases hsw : (fe != le)
    · exact ⟨_, rfl⟩
    · obtain ⟨out, ho, _⟩ := swapNbyte_spec le
        ((content.drop (pre.length + 4 + nSkip * msize)).take (msize * nRead) ++
          (List.replicate (msize * nRead) 0#8).drop (nRead * msize)) nRead msize (by
            rw [List.length_append, hgl]; omega)
      exact ⟨out, by simp only [if_true]; rw [ho]; rfl⟩
  obtain ⟨data, hd⟩ := h3
  have h4 : (File.mk content (pre.length + 4 + nSkip * msize + nRead * msize)).seekCur
      ((payload.length : Int) - (((nSkip + nRead) * msize : Nat) : Int))
      = ⟨content, pre.length + 4 + payload.length⟩ := by
    unfold File.seekCur
    rw [Nat.add_mul]
    rw [if_neg (by simp only; omega)]
    simp only [File.mk.injEq, true_and]; omega
  have h5 : readBlockSize le ⟨content, pre.length + 4 + payload.length⟩ (fe != le)
      = .ok (x.toInt, ⟨content, pre.length + 4 + payload.length + 4⟩) := by
    rw [readBlockSize_ok le fe x]
    show (content.drop (pre.length + 4 + payload.length)).take 4 = bytes32 fe x
    rw [hc]
    exact take_drop_middle _ _ _ _ _ (by simp [hMl]; omega) (bytes32_length _ _)
  unfold fortranRead
  rw [h1, Outcome.bind_ok]
  simp only [h2]
  rw [hd, Outcome.bind_ok]
  simp only [h4]
  rw [h5, Outcome.bind_ok]
  simp only
  rw [if_neg]
  intro h
  apply hx
  rw [← toInt_ofNat_small _ hlen] at h
  exact (BitVec.eq_of_toInt_eq h).symm

/-- C07, damaged record met while skipping: the program stops as well. -/
theorem C07_skip_marker_mismatch (le fe : Bool) (pre payload post : List Byte) (x : BitVec 32)
    (hlen : payload.length < 2 ^ 31) (hx : x ≠ BitVec.ofNat 32 payload.length) :
    skipFortranBlock le
      ⟨pre ++ bytes32 fe (BitVec.ofNat 32 payload.length) ++ payload ++ bytes32 fe x ++ post,
        pre.length⟩ (fe != le) = .abort := by
  set M := bytes32 fe (BitVec.ofNat 32 payload.length) with hM
  have hMl : M.length = 4 := bytes32_length _ _
  set content := pre ++ M ++ payload ++ bytes32 fe x ++ post with hc
  have h1 : readBlockSize le ⟨content, pre.length⟩ (fe != le)
      = .ok ((payload.length : Int), ⟨content, pre.length + 4⟩) := by
    rw [readBlockSize_ok le fe (BitVec.ofNat 32 payload.length), toInt_ofNat_small _ hlen]
    show (content.drop pre.length).take 4 = M
    rw [hc]
    have : pre ++ M ++ payload ++ bytes32 fe x ++ post
        = pre ++ M ++ (payload ++ bytes32 fe x ++ post) := by simp
    rw [this]
    exact take_drop_middle _ _ _ _ _ rfl hMl
  have h4 : (File.mk content (pre.length + 4)).seekCur (payload.length : Int)
      = ⟨content, pre.length + 4 + payload.length⟩ := by
    unfold File.seekCur
    rw [if_neg (by simp only; omega)]
    simp only [File.mk.injEq, true_and]; omega
  have h5 : readBlockSize le ⟨content, pre.length + 4 + payload.length⟩ (fe != le)
      = .ok (x.toInt, ⟨content, pre.length + 4 + payload.length + 4⟩) := by
    rw [readBlockSize_ok le fe x]
    show (content.drop (pre.length + 4 + payload.length)).take 4 = bytes32 fe x
    rw [hc]
    exact take_drop_middle _ _ _ _ _ (by simp [hMl]; omega) (bytes32_length _ _)
  unfold skipFortranBlock
  rw [h1, Outcome.bind_ok]
  simp only [h4]
  rw [h5, Outcome.bind_ok]
  simp only
  rw [if_neg]
  intro h
  apply hx
  rw [← toInt_ofNat_small _ hlen] at h
  exact (BitVec.eq_of_toInt_eq h).symm

/-- A record of three bytes whose trailing marker says four. -/
example : skipFortranBlock true ⟨[3, 0, 0, 0, 7, 8, 9, 4, 0, 0, 0], 0⟩ false = .abort := by
  decide

/-- Two records, big-endian file on a little-endian host, members of two bytes: skip the first
record, then skip one member and read one. -/
example : (do
      let f ← skipMany true true 1 ⟨([[7, 8, 9], [1, 2, 3, 4]].map (record false)).flatten, 0⟩
      fortranRead true 2 1 1 f true)
    = .ok ([4, 3], ⟨([[7, 8, 9], [1, 2, 3, 4]].map (record false)).flatten, 23⟩) := by
  decide

end HBT.Props
