import Verif.Lemmas.GadgetGroup
/-!
# C43: reading a group catalogue in parallel
-/
namespace HBT.Props
open HBT HBT.Model HBT.Spec
variable {w : Nat}

theorem maskedId_eq (mask id : BitVec w) : maskedId mask id = idOf mask id := by
  unfold maskedId idOf
  by_cases h : mask = 0#w <;> simp [h]

/-- The lengths of all groups of the catalogue, in file order. -/
def groupLens (files : List (GroupFile w)) : List Nat := (files.map GroupFile.len).flatten

/-- All particle ids of the catalogue, in file order. -/
def groupIds (mask : BitVec w) (files : List (GroupFile w)) : List Int :=
  (files.map GroupFile.ids).flatten.map (idOf mask)

theorem allIds_eq (mask : BitVec w) (files : List (GroupFile w)) : allIds mask files = groupIds mask files := by
  unfold allIds groupIds
  rw [List.map_flatten, List.map_map]
  congr 2
  funext f
  simp [maskedId_eq]

theorem groupIds_length (mask : BitVec w) (files : List (GroupFile w)) :
    (groupIds mask files).length = (fileSizes files).sum := by
  rw [← allIds_eq, allIds_length]

/-- A catalogue that is complete: every file knows the number of files, and the group lengths add
up to the number of ids. -/
def Complete (files : List (GroupFile w)) : Prop :=
  (∀ f ∈ files, f.nfiles = files.length) ∧
  (groupLens files).sum = (files.map GroupFile.ids).flatten.length

theorem Complete.sum {files : List (GroupFile w)} (h : Complete files) :
    (groupLens files).sum = (fileSizes files).sum := by
  rw [h.2, List.length_flatten, fileSizes, List.map_map]; rfl

theorem checkCounts_ok (n : Nat) (files : List (GroupFile w)) (h : ∀ f ∈ files, f.nfiles = n) :
    checkCounts n files = .ok () := by
  induction files with
  | nil => rfl
  | cons f fs ih =>
    rw [checkCounts, if_neg (by rw [h f (by simp)]; simp)]
    exact ih (fun g hg => h g (by simp [hg]))

theorem compileOffsets_total (l : List Nat) : (compileOffsets l).2 = l.sum := by
  rw [compileOffsets, compileOffsetsFrom_total]; omega

theorem cut_empty {α : Type} (ns : List Nat) (l : List α) (h : ns.sum = 0) : ∀ g ∈ cut ns l, g = [] := by
  induction ns generalizing l with
  | nil => simp [cut]
  | cons n ns ih =>
    simp only [List.sum_cons, Nat.add_eq_zero_iff] at h
    intro g hg
    simp only [cut, List.mem_cons] at hg
    rcases hg with rfl | hg
    · simp [h.1]
    · exact ih _ h.2 g hg

theorem psum_drop (l : List Nat) (h k : Nat) : psum (l.drop h) k = psum l (h + k) - psum l h := by
  unfold psum
  rw [List.take_add, List.sum_append]; omega

theorem cut_rest_empty {α : Type} (ns : List Nat) (l : List α) (h : Nat) (hs : psum ns h = ns.sum) :
    ∀ g ∈ (cut ns l).drop h, g = [] := by
  rw [← cut_drop]
  apply cut_empty
  have := psum_drop ns h (ns.length)
  rw [psum_length _ (by simp), psum_length ns (by omega), hs] at this
  omega

theorem segments {α : Type} (X : List α) (bs : Nat → Nat) (P : Nat) (h0 : bs 0 = 0)
    (hm : ∀ i, i < P → bs i ≤ bs (i + 1)) :
    (List.ofFn (fun r : Fin P => (X.drop (bs r)).take (bs (r + 1) - bs r))).flatten = X.take (bs P) := by
  induction P with
  | zero => simp [h0]
  | succ P ih =>
    rw [List.ofFn_succ_last, List.flatten_append]
    simp only [Fin.val_castSucc, Fin.val_last, List.flatten_cons, List.flatten_nil, List.append_nil]
    rw [ih (fun i hi => hm i (by omega))]
    have := hm P (by omega)
    have e : bs (P + 1) = bs P + (bs (P + 1) - bs P) := by omega
    rw [e, List.take_add]
    congr 2
    omega

theorem renumber (X : List (List Int)) (h k : Nat) :
    ((X.drop h).take k).zipIdx.map (fun x => ((h : Int) + (x.2 : Nat), x.1))
      = ((X.zipIdx.map (fun x => ((x.2 : Int), x.1))).drop h).take k := by
  apply List.ext_getElem?
  intro i
  simp only [List.getElem?_map, List.getElem?_zipIdx, List.getElem?_take, List.getElem?_drop]
  split
  · simp only [List.getElem?_map, List.getElem?_zipIdx, Option.map_map]
    congr 1
    funext x
    simp
  · rfl

theorem taskLens (lens : List Nat) (h h' r : Nat) (t : FileAssignment) (ht : t.haloidBegin = h)
    (hn : t.nhalo = (h' : Int) - h) (hle : h ≤ h') (hl : h' ≤ lens.length) (h0 : r = 0 → h = 0) :
    receiveLens lens r t = .ok ((lens.drop h).take (h' - h)) := by
  unfold receiveLens
  by_cases hr : r = 0
  · rw [if_pos hr, hn, h0 hr, resizeTo, if_neg (by omega), show ((h' : Int) - (0 : Nat)).toNat = h' by omega,
      show h' - lens.length = 0 by omega]
    simp
  · rw [if_neg hr, if_neg (by omega), slice, if_pos (by omega), ht, hn]
    congr 2
    · omega

/-- The task of one rank reads its own groups. -/
theorem rank_ok (mask : BitVec w) (files : List (GroupFile w)) (hsum : (groupLens files).sum = (fileSizes files).sum)
    (h h' r : Nat) (hle : h ≤ h') (hl : h' ≤ (groupLens files).length) (h0 : r = 0 → h = 0)
    (t : FileAssignment) (ht : GoodTask (groupLens files) (fileSizes files) h h' t) :
    (do
      let lens ← receiveLens (groupLens files) r t
      let buf ← readTask mask files t (t.ifileEnd - t.ifileBegin).toNat t.ifileBegin []
      populate t.haloidBegin lens buf)
    = .ok (((((cut (groupLens files) (groupIds mask files)).zipIdx.map (fun x => ((x.2 : Int), x.1))).drop h).take (h' - h))) := by
  obtain ⟨fb, fe, rfl, g1, g2, g3, g4, g5, g6, g7⟩ := ht
  have hm : psum (groupLens files) h ≤ psum (groupLens files) h' := psum_mono _ hle
  rw [taskLens (groupLens files) h h' r _ rfl rfl hle hl h0, Outcome.bind_ok,
    readTask_ok mask files _ _ h h' fb fe hm (by simpa [fileSizes] using g1) (by simpa [fileSizes] using g2) g3
      g4 g5 g6 g7, Outcome.bind_ok, allIds_eq]
  have hps : psum ((groupLens files).drop h) (h' - h) = psum (groupLens files) h' - psum (groupLens files) h := by
    rw [psum_drop]; congr 2; omega
  have hlen : psum (groupLens files) h' ≤ (groupIds mask files).length := by
    rw [groupIds_length, ← hsum]; exact psum_le _ _
  rw [populate_ok _ _ _ (by
    have : (((groupLens files).drop h).take (h' - h)).sum = psum ((groupLens files).drop h) (h' - h) := rfl
    rw [this, hps]; simp; omega)]
  rw [← hps, cut_take, cut_drop]
  congr 1
  exact renumber _ h (h' - h)

/-- What the whole load does for a complete catalogue with at least as many particles as
processes. -/
theorem load_segments (P : Nat) (mask : BitVec w) (files : List (GroupFile w)) (hc : Complete files)
    (hpos : 0 < (fileSizes files).sum) (hP : P ≤ (fileSizes files).sum) :
    ∃ bs : Nat → Nat, bs 0 = 0 ∧ (0 < P → psum (groupLens files) (bs P) = (fileSizes files).sum) ∧
      (∀ i, i < P → bs i ≤ bs (i + 1) ∧ bs (i + 1) ≤ (groupLens files).length) ∧
      (∀ i, i < P → ∀ j, j < bs (i + 1) → psum (groupLens files) j <
        psum (groupLens files) (bs i) + ((fileSizes files).sum - psum (groupLens files) (bs i)) / (P - i)) ∧
      (∀ i, i < P → psum (groupLens files) (bs i)
        + ((fileSizes files).sum - psum (groupLens files) (bs i)) / (P - i) ≤ psum (groupLens files) (bs (i + 1))) ∧
      loadGroups P mask files = .ok (fun r => ((((cut (groupLens files) (groupIds mask files)).zipIdx.map
        (fun x => ((x.2 : Int), x.1))).drop (bs r)).take (bs (r + 1) - bs r))) := by
  have hsum := hc.sum
  obtain ⟨ts, bs, a1, a2, a3, a4, a5, a6, a7, a8⟩ := assignLoop_ok (groupLens files) (fileSizes files) hsum hpos P 0
    ⟨by omega, by omega⟩ (fun _ => hP)
  refine ⟨bs, a3, a4, a5, a7, a8, ?_⟩
  rw [psum_zero] at a1
  have hplan : planLoad P files = .ok (groupLens files, ts) := by
    unfold planLoad planTasks
    rw [checkCounts_ok _ _ hc.1, Outcome.bind_ok]
    simp only [compileOffsets_total]
    have e1 : (files.map (fun f => f.ids.length)) = fileSizes files := rfl
    have e2 : (files.map GroupFile.len).flatten = groupLens files := rfl
    rw [e1, e2, if_neg (by rw [hsum]; simp)]
    rw [Nat.cast_zero] at a1
    rw [a1, Outcome.bind_ok]
  unfold loadGroups
  rw [hplan, Outcome.bind_ok]
  apply allRanks_ok
  intro r
  have hr : r.val < ts.length := by rw [a2]; exact r.isLt
  rw [Outcome.get_of_lt hr, Outcome.bind_ok]
  exact rank_ok mask files hsum _ _ _ (a5 r r.isLt).1 (a5 r r.isLt).2 (fun h => by rw [h, a3]) _ (a6 r hr)

theorem assignLoop_zero (ho fo : List Int) (n : Nat) (b : Int) :
    assignLoop 0 ho fo n b = .ok (List.replicate n emptyAssignment) := by
  induction n with
  | zero => rfl
  | succ n ih =>
    rw [assignLoop, assignHaloTasks, if_pos rfl, Outcome.bind_ok]
    simp only
    rw [ih, Outcome.bind_ok, List.replicate_succ]

theorem load_nothing (P : Nat) (mask : BitVec w) (files : List (GroupFile w)) (hc : Complete files)
    (h0 : (fileSizes files).sum = 0) : loadGroups P mask files = .ok (fun _ => []) := by
  have hsum := hc.sum
  have hplan : planLoad P files = .ok (groupLens files, List.replicate P emptyAssignment) := by
    unfold planLoad planTasks
    rw [checkCounts_ok _ _ hc.1, Outcome.bind_ok]
    simp only [compileOffsets_total]
    have e1 : (files.map (fun f => f.ids.length)) = fileSizes files := rfl
    have e2 : (files.map GroupFile.len).flatten = groupLens files := rfl
    rw [e1, e2, if_neg (by rw [hsum]; simp), h0]
    rw [Nat.cast_zero, assignLoop_zero, Outcome.bind_ok]
  unfold loadGroups
  rw [hplan, Outcome.bind_ok]
  apply allRanks_ok
  intro r
  rw [Outcome.get_of_lt (by simp), Outcome.bind_ok]
  simp only [List.getElem_replicate]
  have : receiveLens (groupLens files) r.val emptyAssignment = .ok [] := by
    unfold receiveLens
    split
    · simp [resizeTo, emptyAssignment]
    · rw [if_neg (by simp [emptyAssignment])]
      simp [emptyAssignment, slice]
  rw [this, Outcome.bind_ok]
  rfl

/-- C43. A complete catalogue that is empty or holds at least as many particles as there are
processes is read without error, and the haloes of the processes, one process after the other, are
exactly the groups of the catalogue in order, with their numbers and their own ids; only empty
groups at the very end of the catalogue may be left out. -/
theorem C43_groups (P : Nat) (hP : 0 < P) (mask : BitVec w) (files : List (GroupFile w)) (hc : Complete files)
    (henough : (groupIds mask files).length = 0 ∨ P ≤ (groupIds mask files).length) :
    ∃ out, loadGroups P mask files = .ok out ∧ ∃ m,
      (List.ofFn out).flatten = ((catalogue (groupLens files) (groupIds mask files)).take m).map
        (fun g => ((g.1 : Int), g.2)) ∧
      ∀ g ∈ (catalogue (groupLens files) (groupIds mask files)).drop m, g.2 = [] := by
  rw [groupIds_length] at henough
  have hcat : ∀ m, ((catalogue (groupLens files) (groupIds mask files)).take m).map (fun g => ((g.1 : Int), g.2))
      = ((cut (groupLens files) (groupIds mask files)).zipIdx.map (fun x => ((x.2 : Int), x.1))).take m := by
    intro m
    rw [catalogue, List.map_take, List.map_map]; rfl
  have hrest : ∀ m, psum (groupLens files) m = (groupLens files).sum →
      ∀ g ∈ (catalogue (groupLens files) (groupIds mask files)).drop m, g.2 = [] := by
    intro m hm g hg
    have h1 := cut_rest_empty (groupLens files) (groupIds mask files) m hm
    rw [catalogue, List.mem_iff_getElem?] at hg
    obtain ⟨i, hi⟩ := hg
    rw [List.getElem?_drop, List.getElem?_map, List.getElem?_zipIdx, Option.map_map] at hi
    obtain ⟨x, hx, rfl⟩ := Option.map_eq_some_iff.mp hi
    exact h1 x (List.mem_iff_getElem?.mpr ⟨i, by rw [List.getElem?_drop]; exact hx⟩)
  rcases Nat.eq_zero_or_pos (fileSizes files).sum with hz | hpos
  · refine ⟨_, load_nothing P mask files hc hz, 0, by simp, hrest 0 ?_⟩
    rw [psum_zero, hc.sum, hz]
  · obtain ⟨bs, b1, b2, b3, _, _, b4⟩ := load_segments P mask files hc hpos (by omega)
    refine ⟨_, b4, bs P, ?_, hrest _ (by rw [b2 hP, hc.sum])⟩
    rw [hcat]
    exact segments _ bs P b1 (fun i hi => (b3 i hi).1)

theorem ceil_step (c T n s : Nat) (h : T ≤ c * (n + 1)) (hs : T / (n + 1) ≤ s) : T - s ≤ c * n := by
  have h1 : T < (T / (n + 1) + 1) * (n + 1) := by
    have := Nat.lt_mul_div_succ T (Nat.succ_pos n)
    rw [Nat.mul_comm]; exact this
  generalize T / (n + 1) = f at hs h1
  rcases Nat.lt_or_ge f c with hf | hf
  · have h2 : (f + 1) * n ≤ c * n := Nat.mul_le_mul_right n hf
    have h3 : (f + 1) * (n + 1) = (f + 1) * n + (f + 1) := Nat.mul_succ _ _
    omega
  · have h3 : c * (n + 1) = c * n + c := Nat.mul_succ _ _
    omega

/-- C43, balance: no process gets more particles than its even share plus what it takes to complete
the last group. -/
theorem C43_balance (P : Nat) (mask : BitVec w) (files : List (GroupFile w)) (hc : Complete files)
    (hpos : 0 < (groupIds mask files).length) (hP : P ≤ (groupIds mask files).length)
    (L : Nat) (hL : ∀ n ∈ groupLens files, n ≤ L) :
    ∃ out, loadGroups P mask files = .ok out ∧ ∀ r,
      ((out r).map (fun g => g.2.length)).sum ≤ ((groupIds mask files).length + P - 1) / P + (L - 1) := by
  have hlenids := groupIds_length mask files
  rw [hlenids] at hpos hP ⊢
  obtain ⟨bs, b1, b2, b3, b5, b6, b4⟩ := load_segments P mask files hc hpos hP
  refine ⟨_, b4, ?_⟩
  intro r
  have hsum := hc.sum
  obtain ⟨c, hcd⟩ : ∃ c, c = ((fileSizes files).sum + P - 1) / P := ⟨_, rfl⟩
  rw [← hcd]
  have hP0 : 0 < P := by have := r.isLt; omega
  have hc0 : (fileSizes files).sum ≤ c * P := by
    rw [hcd]
    have h1 := Nat.div_add_mod ((fileSizes files).sum + P - 1) P
    have h2 := Nat.mod_lt ((fileSizes files).sum + P - 1) hP0
    rw [Nat.mul_comm]
    generalize P * (((fileSizes files).sum + P - 1) / P) = x at h1 ⊢
    generalize ((fileSizes files).sum + P - 1) % P = y at h1 h2
    omega
  -- what is left for rank `i` is at most `c` for each of the remaining ranks
  have hleft : ∀ i, i ≤ P → (fileSizes files).sum - psum (groupLens files) (bs i) ≤ c * (P - i) := by
    intro i
    induction i with
    | zero => intro _; rw [b1, psum_zero]; simpa using hc0
    | succ i ih =>
      intro hi
      have h1 := ih (by omega)
      have h2 := b6 i (by omega)
      have e : P - i = (P - (i + 1)) + 1 := by omega
      rw [e] at h1 h2
      have := ceil_step c _ _ (psum (groupLens files) (bs (i + 1)) - psum (groupLens files) (bs i)) h1 (by omega)
      have := psum_le (groupLens files) (bs i)
      have := psum_mono (groupLens files) (b3 i (by omega)).1
      omega
  -- number of particles of the rank
  have hcount : ((((((cut (groupLens files) (groupIds mask files)).zipIdx.map
      (fun x => ((x.2 : Int), x.1))).drop (bs r)).take (bs (r + 1) - bs r))).map (fun g => g.2.length)).sum
      = psum (groupLens files) (bs (r + 1)) - psum (groupLens files) (bs r) := by
    have h1 : ∀ (ns : List Nat) (l : List Int), ns.sum ≤ l.length → (cut ns l).map List.length = ns := by
      intro ns
      induction ns with
      | nil => intro l _; rfl
      | cons n ns ih =>
        intro l hl
        simp only [List.sum_cons] at hl
        simp only [cut, List.map_cons, List.length_take]
        rw [ih (l.drop n) (by simp; omega), Nat.min_eq_left (by omega)]
    rw [List.map_take, List.map_drop, List.map_map]
    have h2 : (cut (groupLens files) (groupIds mask files)).zipIdx.map
        ((fun g : Int × List Int => g.2.length) ∘ (fun x => ((x.2 : Int), x.1))) = groupLens files := by
      have e : ((fun g : Int × List Int => g.2.length) ∘ (fun x : List Int × Nat => ((x.2 : Int), x.1)))
          = (List.length ∘ Prod.fst) := by funext x; rfl
      rw [e, ← List.map_map, List.zipIdx_map_fst, h1 _ _ (by rw [hlenids, hsum])]
    rw [h2]
    have := psum_drop (groupLens files) (bs r) (bs (r + 1) - bs r)
    rw [psum, Nat.add_sub_cancel' (b3 r r.isLt).1] at this
    exact this
  rw [hcount]
  have hdiv : ((fileSizes files).sum - psum (groupLens files) (bs r)) / (P - r) ≤ c :=
    Nat.div_le_of_le_mul (by rw [Nat.mul_comm]; exact hleft r (by omega))
  rcases Nat.lt_or_ge (bs r) (bs (r + 1)) with hlt | hge
  · have h1 := b5 r r.isLt (bs (r + 1) - 1) (by omega)
    have hb := (b3 r r.isLt).2
    have h2 : psum (groupLens files) (bs (r + 1)) = psum (groupLens files) (bs (r + 1) - 1)
        + (groupLens files)[bs (r + 1) - 1] := by
      have := sum_take_succ' (groupLens files) (bs (r + 1) - 1) (by omega)
      rw [Nat.sub_add_cancel (by omega)] at this
      exact this
    have h3 := hL _ (List.getElem_mem (show bs (r + 1) - 1 < (groupLens files).length by omega))
    omega
  · have : bs (r + 1) = bs r := by have := (b3 r r.isLt).1; omega
    rw [this]; omega

/-- C43, the other case: a catalogue with fewer particles than there are processes, but at least
one, makes the code read in front of the array of file offsets. -/
theorem C43_too_few_particles (P : Nat) (mask : BitVec w) (files : List (GroupFile w)) (hc : Complete files)
    (hpos : 0 < (groupIds mask files).length) (hfew : (groupIds mask files).length < P) :
    loadGroups P mask files = .ub := by
  rw [groupIds_length] at hpos hfew
  have hsum := hc.sum
  obtain ⟨n, rfl⟩ : ∃ n, P = n + 1 := ⟨P - 1, by omega⟩
  obtain ⟨a1, a2, a3⟩ := offsetLower_spec (groupLens files) 0
  obtain ⟨c1, c2, c3⟩ := offsetUpper_spec (fileSizes files) 0
  obtain ⟨d1, d2, d3⟩ := offsetLower_spec (fileSizes files) 0
  have z : ∀ l : List Nat, offsetLower ((compileOffsets l).1.map Int.ofNat) 0 = 0 := by
    intro l
    have h := (offsetLower_spec l 0).2.1
    by_contra hne
    have := h 0 (by omega)
    simp [psum_zero] at this
  have hsl : 0 < (fileSizes files).length := by
    rcases hfs : fileSizes files with _ | ⟨x, xs⟩
    · rw [hfs] at hpos; simp at hpos
    · simp
  have hll : 0 < (groupLens files).length := by
    rcases hfs : groupLens files with _ | ⟨x, xs⟩
    · rw [hfs] at hsum; simp at hsum; omega
    · simp
  generalize hu : offsetUpper ((compileOffsets (fileSizes files)).1.map Int.ofNat) 0 = u at c1 c2 c3
  have hu0 : 0 < u := by
    rcases Nat.eq_zero_or_pos u with hz | hz
    · subst hz; have := c3 hsl; rw [psum_zero] at this; omega
    · exact hz
  have hplan : planLoad (n + 1) files = .ub := by
    unfold planLoad planTasks
    rw [checkCounts_ok _ _ hc.1, Outcome.bind_ok]
    simp only [compileOffsets_total]
    have e1 : (files.map (fun f => f.ids.length)) = fileSizes files := rfl
    have e2 : (files.map GroupFile.len).flatten = groupLens files := rfl
    rw [e1, e2, if_neg (by rw [hsum]; simp)]
    have hshare : (((fileSizes files).sum : Int) - 0).tdiv ((n + 1 : Nat) : Int) = 0 := by
      rw [Int.sub_zero, ← Int.ofNat_tdiv, Nat.div_eq_of_lt hfew]; rfl
    have htask : assignHaloTasks (n + 1) (fileSizes files).sum
        (((compileOffsets (groupLens files)).1 ++ [(fileSizes files).sum]).map Int.ofNat)
        ((compileOffsets (fileSizes files)).1.map Int.ofNat) 0 emptyAssignment = .ub := by
      unfold assignHaloTasks
      rw [if_neg (by omega), if_neg (by omega)]
      simp only
      rw [List.map_append, List.map_singleton, List.dropLast_concat, hshare, Int.add_zero, z]
      have hat : atChecked ((compileOffsets (groupLens files)).1.map Int.ofNat ++ [Int.ofNat (fileSizes files).sum]) 0
          = .ok 0 := by
        unfold atChecked
        rw [List.getElem?_append_left (by rw [offsets_len]; exact hll), offsets_get _ _ hll, psum_zero]
        rfl
      rw [hat, Outcome.bind_ok, z, hu]
      have hg : Outcome.getI ((compileOffsets (fileSizes files)).1.map Int.ofNat) ((u : Int) - 1)
          = .ok (psum (fileSizes files) (u - 1) : Int) := by
        unfold Outcome.getI Outcome.get
        rw [if_neg (by omega), show ((u : Int) - 1).toNat = u - 1 by omega, offsets_get _ _ (by omega)]
      rw [hg, Outcome.bind_ok]
      rfl
    rw [assignLoop, htask]
    rfl
  unfold loadGroups
  rw [hplan]
  rfl

/-- C43: a catalogue whose group lengths do not add up to the number of ids is refused. -/
theorem C43_inconsistent_refused (P : Nat) (mask : BitVec w) (files : List (GroupFile w))
    (hbad : (groupLens files).sum ≠ (groupIds mask files).length) :
    loadGroups P mask files = .abort := by
  rw [groupIds_length] at hbad
  have hcc : ∀ (n : Nat) (fs : List (GroupFile w)), checkCounts n fs = .ok () ∨ checkCounts n fs = .abort := by
    intro n fs
    induction fs with
    | nil => left; rfl
    | cons f fs ih =>
      rw [checkCounts]
      split
      · right; rfl
      · exact ih
  have hplan : planLoad P files = .abort := by
    unfold planLoad planTasks
    rcases hcc files.length files with h | h
    · rw [h, Outcome.bind_ok]
      simp only [compileOffsets_total]
      have e1 : (files.map (fun f => f.ids.length)) = fileSizes files := rfl
      have e2 : (files.map GroupFile.len).flatten = groupLens files := rfl
      rw [e1, e2, if_pos hbad]
    · rw [h]; rfl
  unfold loadGroups
  rw [hplan]
  rfl

/-- C43: so is one in which a file records another number of files. -/
theorem C43_missing_file_refused (P : Nat) (mask : BitVec w) (files : List (GroupFile w))
    (hbad : ∃ f ∈ files, f.nfiles ≠ files.length) : loadGroups P mask files = .abort := by
  have hcc : ∀ (n : Nat) (fs : List (GroupFile w)), (∃ f ∈ fs, f.nfiles ≠ n) → checkCounts n fs = .abort := by
    intro n fs
    induction fs with
    | nil => simp
    | cons f fs ih =>
      rintro ⟨g, hg, hne⟩
      rw [checkCounts]
      split
      · rfl
      · rename_i hf
        rcases List.mem_cons.mp hg with rfl | hg
        · exact absurd (by omega) hf
        · exact ih ⟨g, hg, hne⟩
  unfold loadGroups planLoad planTasks
  rw [hcc _ _ hbad]
  rfl

/-- Five groups, two of them empty, in three files, one of them without particles; group 0 spans the
first two files with particles. -/
def threeFiles : List (GroupFile 32) :=
  [⟨3, [3, 0], [11#32, 12#32]⟩, ⟨3, [], []⟩, ⟨3, [1, 2, 0], [13#32, 14#32, 15#32, 16#32]⟩]

example : Complete threeFiles := by unfold Complete groupLens threeFiles; decide

example : loadGroups 3 0#32 threeFiles = .ok ![[(0, [11, 12, 13])], [(1, []), (2, [14])], [(3, [15, 16])]] := by
  decide +kernel

/-- With as many processes as particles some processes get nothing. -/
example : loadGroups 6 7#32 threeFiles
    = .ok ![[(0, [3, 4, 5])], [], [], [(1, []), (2, [6])], [(3, [7, 0])], []] := by
  decide +kernel

example : loadGroups 7 0#32 threeFiles = .ub := by decide +kernel

end HBT.Props
