import Verif.Model.MpiTypes
/-!
# Lemmas on messages of structures
-/
namespace HBT
open HBT.Spec HBT.Model

/-- The bytes of a block. -/
def slice (src : Mem) (p len : Nat) : List Byte := (List.range len).map (fun j => src (p + j))

theorem writeBytes_slice (src mem : Mem) (p len i : Nat) :
    writeBytes mem p (slice src p len) i = if p ≤ i ∧ i < p + len then src i else mem i := by
  unfold writeBytes slice
  by_cases h : p ≤ i
  · by_cases h2 : i < p + len
    · have h3 : i - p < len := by omega
      have h4 : p + (i - p) = i := by omega
      simp [h, h2, h3, h4]
    · have h3 : ¬ i - p < len := by omega
      simp [h, h2, h3]
  · simp [h]

theorem scatter_gather (bs : List (Nat × Nat)) (src : Mem) : ∀ (dst : Mem) (i : Nat),
    scatterBytes bs (gatherBytes bs src) dst i = if ∃ b ∈ bs, b.1 ≤ i ∧ i < b.1 + b.2 then src i else dst i := by
  induction bs with
  | nil => intro dst i; simp [scatterBytes]
  | cons b bs ih =>
    intro dst i
    have e : gatherBytes (b :: bs) src = slice src b.1 b.2 ++ gatherBytes bs src := by simp [gatherBytes, slice]
    have hl : (slice src b.1 b.2).length = b.2 := by simp [slice]
    rw [e, scatterBytes, List.drop_left' hl, List.take_left' hl, ih, writeBytes_slice]
    by_cases h : ∃ b ∈ bs, b.1 ≤ i ∧ i < b.1 + b.2
    · obtain ⟨c, hc, h1⟩ := h
      rw [if_pos ⟨c, hc, h1⟩, if_pos ⟨c, List.mem_cons_of_mem _ hc, h1⟩]
    · rw [if_neg h]
      by_cases h2 : b.1 ≤ i ∧ i < b.1 + b.2
      · rw [if_pos h2, if_pos ⟨b, List.mem_cons_self, h2⟩]
      · rw [if_neg h2, if_neg]
        rintro ⟨c, hc, h3⟩
        rcases List.mem_cons.1 hc with rfl | hc
        · exact h2 h3
        · exact h ⟨c, hc, h3⟩

theorem delivered_apply (extent n : Nat) (bs : List (Nat × Nat)) (src dst : Mem) (i : Nat) :
    delivered extent n bs src dst i =
      if ∃ k, k < n ∧ ∃ b ∈ bs, k * extent + b.1 ≤ i ∧ i < k * extent + b.1 + b.2 then src i else dst i := by
  unfold delivered
  rw [scatter_gather]
  have : (∃ b ∈ blocksOf extent n bs, b.1 ≤ i ∧ i < b.1 + b.2) ↔
      ∃ k, k < n ∧ ∃ b ∈ bs, k * extent + b.1 ≤ i ∧ i < k * extent + b.1 + b.2 := by
    unfold blocksOf
    simp only [List.mem_flatMap, List.mem_range, List.mem_map]
    constructor
    · rintro ⟨_, ⟨k, hk, b, hb, rfl⟩, h⟩
      exact ⟨k, hk, b, hb, h⟩
    · rintro ⟨k, hk, b, hb, h⟩
      exact ⟨_, ⟨k, hk, b, hb, rfl⟩, h⟩
  simp only [this]

/-- The test of a type that `arrived_of_check` is about. -/
def checkBlocks (ms : List Member) (bs : List (Nat × Nat)) : Bool :=
  bs.all (fun b => b.1 + b.2 ≤ structSize ms) &&
  (offsets ms).all (fun m =>
    m.2 + m.1.bytes ≤ structSize ms &&
    if m.1.elem = .vector then bs.all (fun b => b.1 + b.2 ≤ m.2 ∨ m.2 + m.1.bytes ≤ b.1)
    else bs.any (fun b => b.1 ≤ m.2 ∧ m.2 + m.1.bytes ≤ b.1 + b.2))

theorem arrived_of_check {ms : List Member} {bs : List (Nat × Nat)} (h : checkBlocks ms bs = true) (n : Nat) (src dst after : Mem)
    (ha : ∀ i, after i =
      if ∃ k, k < n ∧ ∃ b ∈ bs, k * structSize ms + b.1 ≤ i ∧ i < k * structSize ms + b.1 + b.2 then src i else dst i) :
    Arrived ms n src dst after := by
  unfold checkBlocks at h
  rw [Bool.and_eq_true, List.all_eq_true, List.all_eq_true] at h
  obtain ⟨hin, hm⟩ := h
  have hin : ∀ b ∈ bs, b.1 + b.2 ≤ structSize ms := fun b hb => by simpa using hin b hb
  refine ⟨?_, ?_⟩
  · intro k hk m hmem
    have h1 := hm m hmem
    rw [Bool.and_eq_true] at h1
    obtain ⟨hsz, h1⟩ := h1
    have hsz : m.2 + m.1.bytes ≤ structSize ms := by simpa using hsz
    by_cases hkept : m.1.elem = .vector
    · rw [if_pos hkept] at h1 ⊢
      unfold memberOf
      refine List.map_congr_left fun j hj => ?_
      rw [List.mem_range] at hj
      rw [ha, if_neg]
      rintro ⟨k', _, b, hb, h2, h3⟩
      have h4 : b.1 + b.2 ≤ m.2 ∨ m.2 + m.1.bytes ≤ b.1 := by simpa using List.all_eq_true.1 h1 b hb
      have h5 := hin b hb
      rcases Nat.lt_trichotomy k k' with hlt | rfl | hlt
      · have := Nat.mul_le_mul_right (structSize ms) (Nat.succ_le_of_lt hlt)
        rw [Nat.succ_mul] at this
        omega
      · omega
      · have := Nat.mul_le_mul_right (structSize ms) (Nat.succ_le_of_lt hlt)
        rw [Nat.succ_mul] at this
        omega
    · rw [if_neg hkept] at h1 ⊢
      unfold memberOf
      refine List.map_congr_left fun j hj => ?_
      rw [List.mem_range] at hj
      obtain ⟨b, hb, h2⟩ := List.any_eq_true.1 h1
      have h2 : b.1 ≤ m.2 ∧ m.2 + m.1.bytes ≤ b.1 + b.2 := by simpa using h2
      rw [ha, if_pos]
      exact ⟨k, hk, b, hb, by omega, by omega⟩
  · intro i hi
    rw [ha, if_neg]
    rintro ⟨k, hk, b, hb, h2, h3⟩
    have := Nat.mul_le_mul_right (structSize ms) (Nat.succ_le_of_lt hk)
    rw [Nat.succ_mul] at this
    have := hin b hb
    omega

theorem carries_of_check {ms : List Member} {bs : List (Nat × Nat)} (h : checkBlocks ms bs = true) : Carries ms bs :=
  fun n src dst => arrived_of_check h n src dst _ (delivered_apply _ n bs src dst)

theorem receivable_blocksOf {extent : Nat} {bs : List (Nat × Nat)} (hin : ∀ b ∈ bs, b.1 + b.2 ≤ extent) (h : Receivable bs) (n : Nat) :
    Receivable (blocksOf extent n bs) := by
  unfold Receivable blocksOf
  rw [List.pairwise_flatMap]
  refine ⟨?_, ?_⟩
  · intro k _
    rw [List.pairwise_map]
    exact h.imp (fun hab => by omega)
  · refine List.pairwise_lt_range.imp ?_
    intro k l hkl x hx y hy
    obtain ⟨a, ha, rfl⟩ := List.mem_map.1 hx
    obtain ⟨b, hb, rfl⟩ := List.mem_map.1 hy
    have := Nat.mul_le_mul_right extent (Nat.succ_le_of_lt hkl)
    rw [Nat.succ_mul] at this
    have := hin a ha
    left
    show k * extent + a.1 + a.2 ≤ l * extent + b.1
    omega

/-! ## Tables -/

theorem find_cell (size : Nat) (src : Mem) (k : Nat) : ∀ (cols : List Column), (cols.map (fun c => c.attr.1)).Nodup → ∀ c ∈ cols,
    (writeRow size cols src k).find? (fun x => x.1.1 = c.attr.1) = some (c.attr, slice src (k * size + c.offset) c.bytes) := by
  intro cols
  induction cols with
  | nil => intro _ c hc; cases hc
  | cons d cols ih =>
    intro hn c hc
    rw [List.map_cons, List.nodup_cons] at hn
    unfold writeRow at ih ⊢
    rw [List.map_cons, List.find?_cons]
    rcases List.mem_cons.1 hc with rfl | hc
    · simp [slice]
    · have hne : ¬ d.attr.1 = c.attr.1 := by
        intro he
        exact hn.1 (List.mem_map.2 ⟨c, hc, he.symm⟩)
      simp only [hne, decide_false]
      exact ih hn.2 c hc

theorem readRow_writeRow (size : Nat) (cols : List Column) (hn : (cols.map (fun c => c.attr.1)).Nodup) (src : Mem) (k : Nat) :
    ∀ (cs : List Column), (∀ c ∈ cs, c ∈ cols) → ∀ mem : Mem, ∃ after, readRow size (writeRow size cols src k) k cs mem = .ok after ∧
      ∀ i, after i = if ∃ c ∈ cs, k * size + c.offset ≤ i ∧ i < k * size + c.offset + c.bytes then src i else mem i := by
  intro cs
  induction cs with
  | nil => intro _ mem; exact ⟨mem, rfl, by simp⟩
  | cons c cs ih =>
    intro hc mem
    obtain ⟨after, h1, h2⟩ := ih (fun d hd => hc d (List.mem_cons_of_mem _ hd))
      (writeBytes mem (k * size + c.offset) (slice src (k * size + c.offset) c.bytes))
    refine ⟨after, ?_, ?_⟩
    · rw [readRow, find_cell size src k cols hn c (hc c List.mem_cons_self)]
      simpa using h1
    · intro i
      rw [h2, writeBytes_slice]
      by_cases h : ∃ c ∈ cs, k * size + c.offset ≤ i ∧ i < k * size + c.offset + c.bytes
      · obtain ⟨d, hd, h3⟩ := h
        rw [if_pos ⟨d, hd, h3⟩, if_pos ⟨d, List.mem_cons_of_mem _ hd, h3⟩]
      · rw [if_neg h]
        by_cases h3 : k * size + c.offset ≤ i ∧ i < k * size + c.offset + c.bytes
        · rw [if_pos h3, if_pos ⟨c, List.mem_cons_self, h3⟩]
        · rw [if_neg h3, if_neg]
          rintro ⟨d, hd, h4⟩
          rcases List.mem_cons.1 hd with rfl | hd
          · exact h3 h4
          · exact h ⟨d, hd, h4⟩

open Classical in
theorem readRows_writeRows (size : Nat) (cols : List Column) (hn : (cols.map (fun c => c.attr.1)).Nodup) (src : Mem) :
    ∀ (n k : Nat) (mem : Mem), ∃ after, readRows size cols k ((List.range' k n).map (writeRow size cols src)) mem = .ok after ∧
      ∀ i, after i = if ∃ l, k ≤ l ∧ l < k + n ∧ ∃ c ∈ cols, l * size + c.offset ≤ i ∧ i < l * size + c.offset + c.bytes
        then src i else mem i := by
  intro n
  induction n with
  | zero =>
    intro k mem
    refine ⟨mem, rfl, fun i => ?_⟩
    rw [if_neg]
    rintro ⟨l, h1, h2, _⟩
    omega
  | succ n ih =>
    intro k mem
    obtain ⟨m1, h1, h2⟩ := readRow_writeRow size cols hn src k cols (fun _ h => h) mem
    obtain ⟨m2, h3, h4⟩ := ih (k + 1) m1
    refine ⟨m2, ?_, ?_⟩
    · rw [List.range'_succ, List.map_cons, readRows, h1, Outcome.bind_ok, h3]
    · intro i
      rw [h4, h2]
      by_cases h : ∃ l, k + 1 ≤ l ∧ l < k + 1 + n ∧ ∃ c ∈ cols, l * size + c.offset ≤ i ∧ i < l * size + c.offset + c.bytes
      · rw [if_pos h]
        obtain ⟨l, h5, h6, h7⟩ := h
        rw [if_pos ⟨l, by omega, by omega, h7⟩]
      · rw [if_neg h]
        by_cases h5 : ∃ c ∈ cols, k * size + c.offset ≤ i ∧ i < k * size + c.offset + c.bytes
        · rw [if_pos h5, if_pos ⟨k, by omega, by omega, h5⟩]
        · rw [if_neg h5, if_neg]
          rintro ⟨l, h6, h7, h8⟩
          rcases Nat.eq_or_lt_of_le h6 with rfl | hlt
          · exact h5 h8
          · exact h ⟨l, by omega, by omega, h8⟩

theorem table_round_trip {ms : List Member} {cols : List Column} (hn : (cols.map (fun c => c.attr.1)).Nodup)
    (h : checkBlocks ms (cols.map (fun c => (c.offset, c.bytes))) = true) (n : Nat) (src dst : Mem) :
    ∃ after, readRows (structSize ms) cols 0 (writeRows (structSize ms) cols n src) dst = .ok after ∧ Arrived ms n src dst after := by
  obtain ⟨after, h1, h2⟩ := readRows_writeRows (structSize ms) cols hn src n 0 dst
  refine ⟨after, ?_, arrived_of_check h n src dst after ?_⟩
  · unfold writeRows
    rw [List.range_eq_range']
    exact h1
  · intro i
    rw [h2]
    have : (∃ l, 0 ≤ l ∧ l < 0 + n ∧ ∃ c ∈ cols, l * structSize ms + c.offset ≤ i ∧ i < l * structSize ms + c.offset + c.bytes) ↔
        ∃ k, k < n ∧ ∃ b ∈ cols.map (fun c => (c.offset, c.bytes)), k * structSize ms + b.1 ≤ i ∧ i < k * structSize ms + b.1 + b.2 := by
      constructor
      · rintro ⟨l, _, h3, c, hc, h4⟩
        exact ⟨l, by omega, _, List.mem_map.2 ⟨c, hc, rfl⟩, h4⟩
      · rintro ⟨l, h3, b, hb, h4⟩
        obtain ⟨c, hc, rfl⟩ := List.mem_map.1 hb
        exact ⟨l, Nat.zero_le _, by omega, c, hc, h4⟩
    simp only [this]

end HBT
