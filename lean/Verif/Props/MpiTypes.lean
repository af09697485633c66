import Verif.Lemmas.MpiTypes
/-!
# C64: messages and tables carry every member of what they transfer

The specification is `Verif.Spec.Layout`: the places of the members of a structure, and what a message with given blocks does. The
theorems hold for every combination of the macros, every number of structures and every content of the memory.
-/
namespace HBT.Props
open HBT HBT.Model HBT.Spec

/-- A statement about all combinations of the macros. -/
theorem all_flags {p : Flags → Prop} (h : ∀ a b c d e f : Bool, p ⟨a, b, c, d, e, f⟩) (fl : Flags) : p fl := h _ _ _ _ _ _

/-- The type is built without an error, and passes the test. -/
def goodType (ms : List Member) : Outcome (List (Nat × Nat)) → Bool
  | .ok bs => checkBlocks ms bs
  | _ => false

theorem carries_of_good {ms : List Member} {t : Outcome (List (Nat × Nat))} (h : goodType ms t = true) :
    ∃ bs, t = .ok bs ∧ Carries ms bs := by
  cases t with
  | ok bs => exact ⟨bs, rfl, carries_of_check h⟩
  | ub => cases h
  | abort => cases h
  | diverge => cases h

/-- Particles, host haloes, subhaloes, halo data of the Apostle reader, its file header, and the tasks of the group reader: the types are
built within the bounds of the arrays and with all assertions true, and messages carry every member but the vectors. -/
theorem C64_messages_carry_every_member (fl : Flags) :
    (∃ bs, particleType fl = .ok bs ∧ Carries (particleMembers fl) bs) ∧
    (∃ bs, haloType fl = .ok bs ∧ Carries (haloMembers fl) bs) ∧
    (∃ bs, subhaloType fl = .ok bs ∧ Carries (subhaloMembers fl) bs) ∧
    (∃ bs, haloInfoType fl = .ok bs ∧ Carries (haloInfoMembers fl) bs) ∧
    (∃ bs, apostleHeaderType fl = .ok bs ∧ Carries (apostleHeaderMembers fl) bs) ∧
    (∃ bs, assignmentType fl = .ok bs ∧ Carries (assignmentMembers fl) bs) := by
  have h : goodType (particleMembers fl) (particleType fl) = true ∧ goodType (haloMembers fl) (haloType fl) = true ∧
      goodType (subhaloMembers fl) (subhaloType fl) = true ∧ goodType (haloInfoMembers fl) (haloInfoType fl) = true ∧
      goodType (apostleHeaderMembers fl) (apostleHeaderType fl) = true ∧ goodType (assignmentMembers fl) (assignmentType fl) = true := by
    revert fl
    refine all_flags ?_
    decide +kernel
  exact ⟨carries_of_good h.1, carries_of_good h.2.1, carries_of_good h.2.2.1, carries_of_good h.2.2.2.1, carries_of_good h.2.2.2.2.1,
    carries_of_good h.2.2.2.2.2⟩

/-- The structures are not empty: a subhalo of a build with eight-byte integers, all particle types and energies has 376 bytes, and its
vectors are at 304, 328 and 352. -/
example : structSize (subhaloMembers ⟨true, false, false, false, false, true⟩) = 376 ∧
    ((offsets (subhaloMembers ⟨true, false, false, false, false, true⟩)).filter (fun m => m.1.elem = .vector)).map Prod.snd = [304, 328, 352] := by
  decide +kernel

/-! ## Overlap -/

/-- The type is built, lies within the structure, and has no byte twice. -/
def receivableType (ms : List Member) : Outcome (List (Nat × Nat)) → Bool
  | .ok bs => bs.all (fun b => b.1 + b.2 ≤ structSize ms) && Receivable bs
  | _ => false

theorem receivable_of_type {ms : List Member} {t : Outcome (List (Nat × Nat))} (h : receivableType ms t = true) :
    ∃ bs, t = .ok bs ∧ ∀ n, Receivable (blocksOf (structSize ms) n bs) := by
  cases t with
  | ok bs =>
    unfold receivableType at h
    rw [Bool.and_eq_true, List.all_eq_true] at h
    exact ⟨bs, rfl, receivable_blocksOf (fun b hb => by simpa using h.1 b hb) (by simpa using h.2)⟩
  | ub => cases h
  | abort => cases h
  | diverge => cases h

/-- Messages of particles, host haloes, halo data, tasks and Gadget headers never write a byte twice. Messages of subhaloes do not in a build
with four-byte integers or for dark matter only. -/
theorem C64_no_byte_is_written_twice (fl : Flags) :
    (∃ bs, particleType fl = .ok bs ∧ ∀ n, Receivable (blocksOf (structSize (particleMembers fl)) n bs)) ∧
    (∃ bs, haloType fl = .ok bs ∧ ∀ n, Receivable (blocksOf (structSize (haloMembers fl)) n bs)) ∧
    (∃ bs, haloInfoType fl = .ok bs ∧ ∀ n, Receivable (blocksOf (structSize (haloInfoMembers fl)) n bs)) ∧
    (∃ bs, assignmentType fl = .ok bs ∧ ∀ n, Receivable (blocksOf (structSize (assignmentMembers fl)) n bs)) ∧
    (∃ bs, gadgetHeaderType = .ok bs ∧ ∀ n, Receivable (blocksOf (structSize gadgetHeaderMembers) n bs)) ∧
    (fl.int8 = false ∨ fl.dmOnly = true → ∃ bs, subhaloType fl = .ok bs ∧ ∀ n, Receivable (blocksOf (structSize (subhaloMembers fl)) n bs)) := by
  have h : receivableType (particleMembers fl) (particleType fl) = true ∧ receivableType (haloMembers fl) (haloType fl) = true ∧
      receivableType (haloInfoMembers fl) (haloInfoType fl) = true ∧ receivableType (assignmentMembers fl) (assignmentType fl) = true ∧
      receivableType gadgetHeaderMembers gadgetHeaderType = true ∧
      (fl.int8 = false ∨ fl.dmOnly = true → receivableType (subhaloMembers fl) (subhaloType fl) = true) := by
    revert fl
    refine all_flags ?_
    decide +kernel
  exact ⟨receivable_of_type h.1, receivable_of_type h.2.1, receivable_of_type h.2.2.1, receivable_of_type h.2.2.2.1,
    receivable_of_type h.2.2.2.2.1, fun hf => receivable_of_type (h.2.2.2.2.2 hf)⟩

/-- **Finding.** `MboundType` consists of six `float` and is registered as six `HBTInt`. In a build with eight-byte integers and all particle
types the block covers the members behind it as well, and a type with overlapping blocks must not be used to receive. -/
theorem C64_subhalo_type_overlaps (fl : Flags) (h8 : fl.int8 = true) (hd : fl.dmOnly = false) :
    ∃ bs, subhaloType fl = .ok bs ∧ ∀ n, 0 < n → ¬ Receivable (blocksOf (structSize (subhaloMembers fl)) n bs) := by
  have h : ∃ bs, subhaloType fl = .ok bs ∧ ¬ Receivable bs := by
    have : (match subhaloType fl with | .ok bs => decide (¬ Receivable bs) | _ => false) = true := by
      revert fl
      refine all_flags ?_
      decide +kernel
    cases ht : subhaloType fl with
    | ok bs => rw [ht] at this; exact ⟨bs, rfl, by simpa using this⟩
    | ub => rw [ht] at this; cases this
    | abort => rw [ht] at this; cases this
    | diverge => rw [ht] at this; cases this
  obtain ⟨bs, h1, h2⟩ := h
  refine ⟨bs, h1, fun n hn hr => h2 ?_⟩
  obtain ⟨n, rfl⟩ : ∃ m, n = m + 1 := ⟨n - 1, by omega⟩
  unfold Receivable blocksOf at hr
  rw [List.pairwise_flatMap] at hr
  have := hr.1 0 (List.mem_range.2 (Nat.succ_pos n))
  rw [List.pairwise_map] at this
  exact this.imp (fun hab => by simpa using hab)

/-- **Finding.** `BoxSize` is registered twice in the type of the Apostle header: it may not be used to receive. -/
theorem C64_apostle_header_overlaps (fl : Flags) : ∃ bs, apostleHeaderType fl = .ok bs ∧ ¬ Receivable bs := by
  have : (match apostleHeaderType fl with | .ok bs => decide (¬ Receivable bs) | _ => false) = true := by
    revert fl
    refine all_flags ?_
    decide +kernel
  cases ht : apostleHeaderType fl with
  | ok bs => rw [ht] at this; exact ⟨bs, rfl, by simpa using this⟩
  | ub => rw [ht] at this; cases this
  | abort => rw [ht] at this; cases this
  | diverge => rw [ht] at this; cases this

/-! ## The header of a Gadget file -/

/-- **Finding.** The header of a Gadget snapshot arrives, but of the six totals only the first: the others are not sent, and neither are the
unused bytes at the end. -/
theorem C64_gadget_header_lacks_totals : ∃ bs, gadgetHeaderType = .ok bs ∧ structSize gadgetHeaderMembers = 256 ∧
    ∀ src dst : Mem, ∀ m ∈ offsets gadgetHeaderMembers,
      memberOf gadgetHeaderMembers 0 m (delivered 256 1 bs src dst) =
        if m.1.name = "npartTotal" then (memberOf gadgetHeaderMembers 0 m src).take 4 ++ (memberOf gadgetHeaderMembers 0 m dst).drop 4
        else if m.1.name = "fill" then memberOf gadgetHeaderMembers 0 m dst
        else memberOf gadgetHeaderMembers 0 m src := by
  have hd : ∀ (src dst : Mem) i, delivered 256 1 [(0, 24), (24, 48), (72, 8), (80, 8), (88, 4), (92, 4), (96, 4), (120, 4), (124, 4), (128, 8), (136, 8),
      (144, 8), (152, 8)] src dst i = if i < 100 ∨ 120 ≤ i ∧ i < 160 then src i else dst i := by
    intro src dst i
    rw [delivered_apply]
    have : (∃ k, k < 1 ∧ ∃ b ∈ [(0, 24), (24, 48), (72, 8), (80, 8), (88, 4), (92, 4), (96, 4), (120, 4), (124, 4), (128, 8), (136, 8),
        (144, 8), (152, 8)], k * 256 + b.1 ≤ i ∧ i < k * 256 + b.1 + b.2) ↔ i < 100 ∨ 120 ≤ i ∧ i < 160 := by
      constructor
      · rintro ⟨k, hk, b, hb, h⟩
        obtain rfl : k = 0 := by omega
        simp only [List.mem_cons, List.not_mem_nil, or_false] at hb
        rcases hb with rfl | rfl | rfl | rfl | rfl | rfl | rfl | rfl | rfl | rfl | rfl | rfl | rfl <;> simp only at h <;> omega
      · intro h
        refine ⟨0, by decide, ?_⟩
        simp only [List.mem_cons, List.not_mem_nil, or_false, exists_eq_or_imp, exists_eq_left]
        omega
    simp only [this]
  have ho : offsets gadgetHeaderMembers = [(⟨"npart", .int 4, 6⟩, 0), (⟨"mass", .real 8, 6⟩, 24), (⟨"ScaleFactor", .real 8, 1⟩, 72),
      (⟨"redshift", .real 8, 1⟩, 80), (⟨"flag_sfr", .int 4, 1⟩, 88), (⟨"flag_feedback", .int 4, 1⟩, 92), (⟨"npartTotal", .unsigned 4, 6⟩, 96),
      (⟨"flag_cooling", .int 4, 1⟩, 120), (⟨"num_files", .int 4, 1⟩, 124), (⟨"BoxSize", .real 8, 1⟩, 128), (⟨"OmegaM0", .real 8, 1⟩, 136),
      (⟨"OmegaLambda0", .real 8, 1⟩, 144), (⟨"HubbleParam", .real 8, 1⟩, 152), (⟨"fill", .char, 96⟩, 160)] := by
    decide +kernel
  refine ⟨[(0, 24), (24, 48), (72, 8), (80, 8), (88, 4), (92, 4), (96, 4), (120, 4), (124, 4), (128, 8), (136, 8), (144, 8), (152, 8)],
    by decide +kernel, by decide +kernel, ?_⟩
  intro src dst m hm
  have hsent : ∀ (a : Member) (o : Nat), (∀ j, j < a.bytes → o + j < 100 ∨ 120 ≤ o + j ∧ o + j < 160) →
      memberOf gadgetHeaderMembers 0 (a, o) (delivered 256 1 [(0, 24), (24, 48), (72, 8), (80, 8), (88, 4), (92, 4), (96, 4), (120, 4), (124, 4),
        (128, 8), (136, 8), (144, 8), (152, 8)] src dst) = memberOf gadgetHeaderMembers 0 (a, o) src := by
    intro a o h
    unfold memberOf
    refine List.map_congr_left fun j hj => ?_
    have := h j (List.mem_range.1 hj)
    rw [hd, if_pos (by simpa using this)]
  have hkept : ∀ (a : Member) (o : Nat), (∀ j, j < a.bytes → ¬ (o + j < 100 ∨ 120 ≤ o + j ∧ o + j < 160)) →
      memberOf gadgetHeaderMembers 0 (a, o) (delivered 256 1 [(0, 24), (24, 48), (72, 8), (80, 8), (88, 4), (92, 4), (96, 4), (120, 4), (124, 4),
        (128, 8), (136, 8), (144, 8), (152, 8)] src dst) = memberOf gadgetHeaderMembers 0 (a, o) dst := by
    intro a o h
    unfold memberOf
    refine List.map_congr_left fun j hj => ?_
    have := h j (List.mem_range.1 hj)
    rw [hd, if_neg (by simpa using this)]
  rw [ho] at hm
  simp only [List.mem_cons, List.not_mem_nil, or_false] at hm
  rcases hm with rfl | rfl | rfl | rfl | rfl | rfl | rfl | rfl | rfl | rfl | rfl | rfl | rfl | rfl
  case inr.inr.inr.inr.inr.inr.inl =>
    rw [if_pos rfl]
    unfold memberOf
    simp only [hd, ← List.map_take, ← List.map_drop]
    have e : List.range (Member.bytes ⟨"npartTotal", .unsigned 4, 6⟩) =
      (List.range (Member.bytes ⟨"npartTotal", .unsigned 4, 6⟩)).take 4 ++ (List.range (Member.bytes ⟨"npartTotal", .unsigned 4, 6⟩)).drop 4 := by
      decide +kernel
    conv => lhs; rw [e]
    rw [List.map_append]
    congr 1
  case inr.inr.inr.inr.inr.inr.inr.inr.inr.inr.inr.inr.inr =>
    rw [if_neg (by decide +kernel), if_pos rfl]
    exact hkept _ _ (by decide +kernel)
  all_goals
    rw [if_neg (by decide +kernel), if_neg (by decide +kernel)]
    exact hsent _ _ (by decide +kernel)

/-! ## Pairs of a number and a rank -/

/-- The type of the reduction that finds the hosts has the elements, the offsets and the size of the pairs. -/
theorem C64_rank_pairs_match (fl : Flags) :
    (offsets (rankPair fl)).map (fun m => (m.1.elem, m.1.count, m.2)) = (offsets (idRankMembers fl)).map (fun m => (m.1.elem, m.1.count, m.2)) ∧
    structSize (rankPair fl) = structSize (idRankMembers fl) := by
  revert fl
  refine all_flags ?_
  decide +kernel

/-! ## Tables -/

/-- The table of subhaloes has one column for each member but the vectors, with the name and the type of the member, at its place in memory.
The rows that are read are those that were written. -/
theorem C64_table_has_every_member (fl : Flags) : ∃ cols, insertAttrs (subhaloMembers fl) (tableAttrs fl) [] = .ok cols ∧
    cols.map (fun c => (c.attr, c.offset)) =
      ((offsets (subhaloMembers fl)).filter (fun m => m.1.elem ≠ .vector)).map (fun m => ((m.1.name, m.1.elem, m.1.count), m.2)) ∧
    ∀ (n : Nat) (src dst : Mem), ∃ after,
      readRows (structSize (subhaloMembers fl)) cols 0 (writeRows (structSize (subhaloMembers fl)) cols n src) dst = .ok after ∧
      Arrived (subhaloMembers fl) n src dst after := by
  have h : (match insertAttrs (subhaloMembers fl) (tableAttrs fl) [] with
      | .ok cols => decide (cols.map (fun c => (c.attr, c.offset)) =
          ((offsets (subhaloMembers fl)).filter (fun m => m.1.elem ≠ .vector)).map (fun m => ((m.1.name, m.1.elem, m.1.count), m.2))) &&
        decide ((cols.map (fun c => c.attr.1)).Nodup) && checkBlocks (subhaloMembers fl) (cols.map (fun c => (c.offset, c.bytes)))
      | _ => false) = true := by
    revert fl
    refine all_flags ?_
    decide +kernel
  cases ht : insertAttrs (subhaloMembers fl) (tableAttrs fl) [] with
  | ok cols =>
    rw [ht] at h
    simp only [Bool.and_eq_true, decide_eq_true_eq] at h
    exact ⟨cols, rfl, h.1.1, fun n src dst => table_round_trip h.1.2 h.2 n src dst⟩
  | ub => rw [ht] at h; cases h
  | abort => rw [ht] at h; cases h
  | diverge => rw [ht] at h; cases h

/-- The table of particle properties has a column for each member of a particle but the identifier, which has its own table. -/
theorem C64_particle_table (fl : Flags) : ∃ cols, insertAttrs (particleMembers fl) (particleTableAttrs fl) [] = .ok cols ∧
    cols.map (fun c => (c.attr, c.offset)) =
      ((offsets (particleMembers fl)).filter (fun m => m.1.name ≠ "Id")).map (fun m => ((m.1.name, m.1.elem, m.1.count), m.2)) := by
  have h : (match insertAttrs (particleMembers fl) (particleTableAttrs fl) [] with
      | .ok cols => decide (cols.map (fun c => (c.attr, c.offset)) =
          ((offsets (particleMembers fl)).filter (fun m => m.1.name ≠ "Id")).map (fun m => ((m.1.name, m.1.elem, m.1.count), m.2)))
      | _ => false) = true := by
    revert fl
    refine all_flags ?_
    decide +kernel
  cases ht : insertAttrs (particleMembers fl) (particleTableAttrs fl) [] with
  | ok cols => rw [ht] at h; exact ⟨cols, rfl, by simpa using h⟩
  | ub => rw [ht] at h; cases h
  | abort => rw [ht] at h; cases h
  | diverge => rw [ht] at h; cases h

/-- A build for dark matter has 31 columns. -/
example : (tableAttrs ⟨false, false, true, false, false, false⟩).length = 31 ∧
    (match insertAttrs (subhaloMembers ⟨false, false, true, false, false, false⟩) (tableAttrs ⟨false, false, true, false, false, false⟩) [] with
      | .ok cols => cols.length
      | _ => 0) = 31 := by
  decide +kernel

end HBT.Props
