import Verif.Model.Exchange
import Verif.Spec.Exchange
import Verif.Props.Mpi
import Verif.Props.Restore
import Verif.Props.Hash
/-!
# Helper lemmas for the particle exchange
-/
namespace HBT
open HBT.Model HBT.Spec HBT.Props
variable {D : Type}

/-- Number of ids below `b`. -/
def below (ids : List Int) (b : Int) : Nat := ids.countP (fun x => decide (x < b))

theorem below_le (ids : List Int) (b : Int) : below ids b ≤ ids.length := List.countP_le_length

theorem below_mono (ids : List Int) {b c : Int} (h : b ≤ c) : below ids b ≤ below ids c := by
  unfold below
  apply List.countP_mono_left
  intro x _ hx
  simp at hx ⊢
  omega

theorem below_all (ids : List Int) (b : Int) (h : ∀ x ∈ ids, x < b) : below ids b = ids.length := by
  unfold below
  rw [List.countP_eq_length]
  intro x hx; simpa using h x hx

theorem below_split (pre post : List Int) (b : Int) (h1 : ∀ x ∈ pre, x < b) (h2 : ∀ x ∈ post, b ≤ x) :
    below (pre ++ post) b = pre.length := by
  unfold below
  rw [List.countP_append, List.countP_eq_length.mpr (by intro x hx; simpa using h1 x hx),
    List.countP_eq_zero.mpr (by intro x hx; simpa using h2 x hx)]
  rfl

/-- In an ascending list the ids below `b` are exactly the first `below ids b`. -/
theorem below_take (ids : List Int) (b : Int) (hs : ids.Pairwise (· ≤ ·)) :
    (∀ x ∈ ids.take (below ids b), x < b) ∧ (∀ x ∈ ids.drop (below ids b), b ≤ x) := by
  induction ids with
  | nil => simp
  | cons a l ih =>
    have hsl := (List.pairwise_cons.mp hs)
    obtain ⟨h1, h2⟩ := ih hsl.2
    by_cases ha : a < b
    · have : below (a :: l) b = below l b + 1 := by
        unfold below; rw [List.countP_cons_of_pos (by simpa using ha)]
      rw [this]
      constructor
      · intro x hx
        rw [List.take_succ_cons, List.mem_cons] at hx
        rcases hx with rfl | hx
        · exact ha
        · exact h1 x hx
      · intro x hx
        rw [List.drop_succ_cons] at hx
        exact h2 x hx
    · have hall : ∀ x ∈ a :: l, b ≤ x := by
        intro x hx
        rcases List.mem_cons.mp hx with rfl | hx
        · omega
        · have := hsl.1 x hx; omega
      have : below (a :: l) b = 0 := by
        unfold below
        rw [List.countP_eq_zero]
        intro x hx; simpa using hall x hx
      rw [this]
      simpa using hall

theorem get_mono {ranges : List Int} (h : ranges.Pairwise (· ≤ ·)) {i j : Nat} (hij : i ≤ j)
    (hj : j < ranges.length) : ranges[i]'(by omega) ≤ ranges[j] := by
  rcases Nat.lt_or_ge i j with h' | h'
  · exact (List.pairwise_iff_getElem.mp h) i j (by omega) hj h'
  · have : i = j := by omega
    subst this; exact Int.le_refl _

theorem cutInner_ok (ranges : List Int) (P : Nat) (hlen : ranges.length = P + 1)
    (hr : ranges.Pairwise (· ≤ ·)) (pre post : List Int) (id : Int) (hid : ∀ x ∈ post, id ≤ x)
    (hlast : ∀ b, ranges[P]? = some b → id < b) :
    ∀ (fuel : Nat) (iters : List Nat), iters.length ≤ P → P + 1 ≤ fuel + iters.length →
    (∀ x ∈ pre, ∀ b, ranges[iters.length]? = some b → x < b) →
    (∀ (j : Nat) b, j < iters.length → ranges[j]? = some b →
      iters[j]? = some (below (pre ++ id :: post) b)) →
    ∃ iters', cutInner ranges P id pre.length fuel iters = .ok iters' ∧ iters'.length ≤ P ∧
      (∀ x ∈ pre ++ [id], ∀ b, ranges[iters'.length]? = some b → x < b) ∧
      (∀ (j : Nat) b, j < iters'.length → ranges[j]? = some b →
        iters'[j]? = some (below (pre ++ id :: post) b)) := by
  intro fuel
  induction fuel with
  | zero => intro iters h1 h2; omega
  | succ fuel ih =>
    intro iters hP hfuel hpre hit
    have hk : iters.length < ranges.length := by omega
    rw [cutInner, Outcome.get_of_lt hk, Outcome.bind_ok]
    split
    · rename_i hge
      have hne : ¬ iters.length = P := by
        intro h
        have := hlast ranges[iters.length] (by rw [← h]; simp [hk])
        omega
      rw [if_neg hne]
      apply ih (iters ++ [pre.length]) (by simp; omega) (by simp; omega)
      · intro x hx b hb
        have hk1 : iters.length + 1 < ranges.length := by omega
        have h1 := hpre x hx ranges[iters.length] (by simp [hk])
        have h2 := get_mono hr (show iters.length ≤ iters.length + 1 by omega) hk1
        simp [hk1] at hb
        omega
      · intro j b hj hb
        by_cases hjl : j < iters.length
        · rw [List.getElem?_append_left hjl]; exact hit j b hjl hb
        · have hj' : j = iters.length := by simp at hj; omega
          subst hj'
          simp [hk] at hb
          rw [List.getElem?_append_right (by omega)]
          simp only [Nat.sub_self, List.getElem?_cons_zero, Option.some.injEq]
          symm
          apply below_split
          · intro x hx; exact hpre x hx b (by simp [hk, hb])
          · intro x hx
            rcases List.mem_cons.mp hx with rfl | hx
            · omega
            · have := hid x hx; omega
    · rename_i hlt
      refine ⟨iters, rfl, hP, ?_, hit⟩
      intro x hx b hb
      rw [List.mem_append] at hx
      rcases hx with hx | hx
      · exact hpre x hx b hb
      · simp at hx; subst hx
        simp [hk] at hb
        omega

theorem cutLoop_ok (ranges : List Int) (P : Nat) (hlen : ranges.length = P + 1)
    (hr : ranges.Pairwise (· ≤ ·)) :
    ∀ (ids pre : List Int) (iters : List Nat), (pre ++ ids).Pairwise (· ≤ ·) →
    (∀ x ∈ ids, ∀ b, ranges[P]? = some b → x < b) → iters.length ≤ P →
    (∀ x ∈ pre, ∀ b, ranges[iters.length]? = some b → x < b) →
    (∀ (j : Nat) b, j < iters.length → ranges[j]? = some b →
      iters[j]? = some (below (pre ++ ids) b)) →
    ∃ iters', cutLoop ranges P ids pre.length iters = .ok iters' ∧ iters'.length ≤ P ∧
      (∀ x ∈ pre ++ ids, ∀ b, ranges[iters'.length]? = some b → x < b) ∧
      (∀ (j : Nat) b, j < iters'.length → ranges[j]? = some b →
        iters'[j]? = some (below (pre ++ ids) b)) := by
  intro ids
  induction ids with
  | nil =>
    intro pre iters _ _ hP hpre hit
    exact ⟨iters, rfl, hP, by simpa using hpre, hit⟩
  | cons id ids ih =>
    intro pre iters hs hlast hP hpre hit
    have hid : ∀ x ∈ ids, id ≤ x := by
      rw [List.pairwise_append] at hs
      exact (List.pairwise_cons.mp hs.2.1).1
    obtain ⟨it1, e1, hP1, hpre1, hit1⟩ := cutInner_ok ranges P hlen hr pre ids id hid
      (hlast id (by simp)) (P+2) iters hP (by omega) hpre hit
    rw [cutLoop, e1, Outcome.bind_ok]
    have happ : pre ++ id :: ids = (pre ++ [id]) ++ ids := by simp
    rw [happ] at hs hit1 ⊢
    have := ih (pre ++ [id]) it1 hs (fun x hx => hlast x (by simp [hx])) hP1 hpre1 hit1
    simpa using this

/-- `LocalIterators` are the numbers of ids below the successive bounds. -/
theorem localIterators_ok (ranges : List Int) (P : Nat) (hlen : ranges.length = P + 1)
    (hr : ranges.Pairwise (· ≤ ·)) (ids : List Int) (hs : ids.Pairwise (· ≤ ·))
    (hlast : ∀ x ∈ ids, ∀ b, ranges[P]? = some b → x < b) :
    localIterators ranges P ids = .ok ((ranges.take P).map (below ids)) := by
  obtain ⟨it, e, hP, hpre, hit⟩ := cutLoop_ok ranges P hlen hr ids [] [] (by simpa using hs) hlast
    (by simp) (by simp) (by simp)
  unfold localIterators
  simp only [List.length_nil, List.nil_append] at e hpre hit
  rw [e, Outcome.bind_ok]
  congr 1
  apply List.ext_getElem
  · simp; omega
  · intro j h1 h2
    have hjP : j < P := by simp at h2; omega
    have hjr : j < ranges.length := by omega
    rw [List.getElem_map, List.getElem_take]
    by_cases hj : j < it.length
    · rw [List.getElem_append_left hj]
      have := hit j ranges[j] hj (by simp [hjr])
      simpa [hj] using this
    · rw [List.getElem_append_right (by omega), List.getElem_replicate]
      symm
      apply below_all
      intro x hx
      have h3 := hpre x hx ranges[it.length] (by simp [show it.length < ranges.length by omega])
      have h4 := get_mono hr (show it.length ≤ j by omega) hjr
      omega

theorem localIterators_abort (ranges : List Int) (P : Nat) (hlen : ranges.length = P + 1)
    (hr : ranges.Pairwise (· ≤ ·)) (ids : List Int)
    (hbad : ∃ x ∈ ids, ∀ b, ranges[P]? = some b → b ≤ x) :
    localIterators ranges P ids = .abort := by
  -- the first id at or above the last bound stops the loop
  have hinner : ∀ (id : Int), (∀ b, ranges[P]? = some b → b ≤ id) → ∀ (pos fuel : Nat) (iters : List Nat),
      iters.length ≤ P → P + 1 ≤ fuel + iters.length →
      cutInner ranges P id pos fuel iters = .abort := by
    intro id hid pos fuel
    induction fuel with
    | zero => intro iters h1 h2; omega
    | succ fuel ih =>
      intro iters h1 h2
      have hk : iters.length < ranges.length := by omega
      rw [cutInner, Outcome.get_of_lt hk, Outcome.bind_ok]
      have hb := hid ranges[P] (by simp [show P < ranges.length by omega])
      have hm := get_mono hr h1 (show P < ranges.length by omega)
      rw [if_pos (by omega)]
      split
      · rfl
      · exact ih _ (by simp; omega) (by simp; omega)
  have hinnerle : ∀ (id : Int) (pos fuel : Nat) (iters it' : List Nat), iters.length ≤ P →
      cutInner ranges P id pos fuel iters = .ok it' → it'.length ≤ P := by
    intro id pos fuel
    induction fuel with
    | zero => intro iters it' _ h; simp [cutInner] at h
    | succ fuel ih =>
      intro iters it' hle h
      have hk : iters.length < ranges.length := by omega
      rw [cutInner, Outcome.get_of_lt hk, Outcome.bind_ok] at h
      split at h
      · split at h
        · simp at h
        · exact ih _ _ (by simp; omega) h
      · cases h; exact hle
  have hnoub : ∀ (id : Int) (pos fuel : Nat) (iters : List Nat), iters.length ≤ P →
      P + 1 ≤ fuel + iters.length →
      (∃ it', cutInner ranges P id pos fuel iters = .ok it') ∨
        cutInner ranges P id pos fuel iters = .abort := by
    intro id pos fuel
    induction fuel with
    | zero => intro iters h1 h2; omega
    | succ fuel ih =>
      intro iters h1 h2
      have hk : iters.length < ranges.length := by omega
      rw [cutInner, Outcome.get_of_lt hk, Outcome.bind_ok]
      split
      · split
        · exact Or.inr rfl
        · exact ih _ (by simp; omega) (by simp; omega)
      · exact Or.inl ⟨_, rfl⟩
  have hloop : ∀ (ids : List Int), (∃ x ∈ ids, ∀ b, ranges[P]? = some b → b ≤ x) →
      ∀ (pos : Nat) (iters : List Nat), iters.length ≤ P →
      cutLoop ranges P ids pos iters = .abort := by
    intro ids
    induction ids with
    | nil => intro ⟨x, hx, _⟩; simp at hx
    | cons a l ih =>
      intro ⟨x, hx, hxb⟩ pos iters hle
      rw [cutLoop]
      by_cases hab : ∀ b, ranges[P]? = some b → b ≤ a
      · rw [hinner a hab _ _ _ hle (by omega)]; rfl
      · rcases hnoub a pos (P+2) iters hle (by omega) with ⟨it', e⟩ | e
        · rw [e, Outcome.bind_ok]
          have hx' : x ∈ l := by
            rcases List.mem_cons.mp hx with rfl | h
            · exact absurd hxb hab
            · exact h
          exact ih ⟨x, hx', hxb⟩ _ _ (hinnerle _ _ _ _ _ hle e)
        · rw [e]; rfl
  unfold localIterators
  rw [hloop ids hbad 0 [] (by simp)]; rfl

/-! ### Blocks between successive cuts -/

/-- The part of `L` between the cuts `c r` and `c (r+1)`. -/
def seg {β : Type} (L : List β) (c : Nat → Nat) (r : Nat) : List β :=
  (L.drop (c r)).take (c (r+1) - c r)

theorem seg_length {β : Type} (L : List β) (c : Nat → Nat) (r : Nat) (h : c (r+1) ≤ L.length) :
    (seg L c r).length = c (r+1) - c r := by
  unfold seg; simp; omega

theorem seg_flatten {β : Type} (L : List β) (c : Nat → Nat) (hc : ∀ r, c r ≤ c (r+1)) (k n : Nat) :
    ((List.range' k n).map (seg L c)).flatten = (L.drop (c k)).take (c (k+n) - c k) := by
  induction n generalizing k with
  | zero => simp
  | succ n ih =>
    have hm : ∀ i, c (k+1) ≤ c (k+1+i) := by
      intro i
      induction i with
      | zero => simp
      | succ i ih => exact le_trans ih (hc _)
    have h1 := hc k
    have h2 := hm n
    rw [List.range'_succ, List.map_cons, List.flatten_cons, ih (k+1), seg,
      show k + (n+1) = k + 1 + n by omega,
      show c (k+1+n) - c k = (c (k+1) - c k) + (c (k+1+n) - c (k+1)) by omega, List.take_add,
      List.drop_drop, show c k + (c (k+1) - c k) = c (k+1) by omega]

theorem writeBack_ok (c : Nat → Nat) (hc : ∀ r, c r ≤ c (r+1)) (b : Nat → List (Particle D)) :
    ∀ (n k : Nat) (buf : List (Particle D)), c (k+n) ≤ buf.length →
    (∀ i, k ≤ i → i < k + n → (b i).length = c (i+1) - c i) →
    writeBack ((List.range' k n).map c) ((List.range' k n).map b) buf
      = .ok (buf.take (c k) ++ ((List.range' k n).map b).flatten ++ buf.drop (c (k+n))) := by
  intro n
  induction n with
  | zero => intro k buf _ _; simp [writeBack]
  | succ n ih =>
    intro k buf hlen hb
    have hm : ∀ i, c (k+1) ≤ c (k+1+i) := by
      intro i
      induction i with
      | zero => simp
      | succ i ih => exact le_trans ih (hc _)
    have h1 := hc k
    have h2 := hm n
    have hlen' : c (k+1+n) ≤ buf.length := by rw [show k+1+n = k+(n+1) by omega]; exact hlen
    have hbk := hb k (by omega) (by omega)
    rw [List.range'_succ, List.map_cons, List.map_cons, writeBack, writeAt,
      if_pos (by omega), Outcome.bind_ok]
    have hl1 : (buf.take (c k) ++ b k).length = c (k+1) := by simp; omega
    have hd : c k + (b k).length = c (k+1) := by omega
    rw [hd]
    rw [ih (k+1) _ (by simp; omega) (fun i h1 h2 => hb i (by omega) (by omega))]
    congr 1
    have e1 : (buf.take (c k) ++ b k ++ buf.drop (c (k+1))).take (c (k+1)) = buf.take (c k) ++ b k := by
      rw [List.take_append_of_le_length (by omega), List.take_of_length_le (by omega)]
    have e2 : (buf.take (c k) ++ b k ++ buf.drop (c (k+1))).drop (c (k+1+n)) = buf.drop (c (k+1+n)) := by
      rw [List.drop_append, List.drop_of_length_le (by omega), List.drop_drop, List.nil_append]
      congr 1; omega
    rw [e1, e2, show k+1+n = k+(n+1) by omega]
    simp

theorem ofFn_eq_map_range' {β : Type} {P : Nat} (f : Nat → β) :
    List.ofFn (fun r : Fin P => f r.val) = (List.range' 0 P).map f := by
  apply List.ext_getElem
  · simp
  · intro i h1 h2; simp

/-- Reading block `s` back from a concatenation of blocks. -/
theorem drop_take_ofFn {β : Type} {P : Nat} (blk : Fin P → List β) (c : Fin P → Nat)
    (hc : ∀ s, (blk s).length = c s) (s : Fin P) :
    (((List.ofFn blk).flatten).drop (offOf c s)).take (c s) = blk s := by
  have hml : (List.ofFn blk).map List.length = List.ofFn c := by
    rw [List.map_ofFn]; congr 1; funext s; exact hc s
  have hs : s.val < (List.ofFn blk).length := by simp
  have hs2 : s.val < (List.ofFn c).length := by simp
  have := List.drop_take_succ_flatten_eq_getElem (List.ofFn blk) s.val hs
  rw [hml, sum_take_succ' _ _ hs2, List.drop_take] at this
  simp only [List.getElem_ofFn, Fin.eta] at this
  unfold offOf
  rw [← this]
  congr 1
  omega

/-! ### The query on one rank -/

theorem find_of_distinct {ps : List (Particle D)} (hd : (ps.map Particle.id).Nodup) {q : Particle D}
    (hq : q ∈ ps) {id : Int} (hid : q.id = id) : ps.find? (fun x => x.id == id) = some q := by
  cases h : ps.find? (fun x => x.id == id) with
  | none =>
    have := List.find?_eq_none.mp h q hq
    simp [hid] at this
  | some q' =>
    have h1 := List.find?_some h
    have h2 := List.mem_of_find?_eq_some h
    simp at h1
    rw [List.inj_on_of_nodup_map hd h2 hq (by rw [h1, hid])]

theorem mem_particleKeys {ps : List (Particle D)} {k v : Int} (h : (k, v) ∈ particleKeys ps) :
    ∃ (i : Nat) (hi : i < ps.length), v = i ∧ (ps[i]).id = k := by
  unfold particleKeys at h
  rw [List.mem_map] at h
  obtain ⟨⟨p, i⟩, hm, he⟩ := h
  have := List.mem_zipIdx_iff_getElem?.mp hm
  simp only [Prod.mk.injEq] at he
  simp only at this
  obtain ⟨hi, hpi⟩ := List.getElem?_eq_some_iff.mp this
  exact ⟨i, hi, he.2.symm, by rw [hpi]; exact he.1⟩

theorem particleKeys_mem {ps : List (Particle D)} {q : Particle D} (hq : q ∈ ps) :
    ∃ v, (q.id, v) ∈ particleKeys ps := by
  obtain ⟨i, hi, rfl⟩ := List.mem_iff_getElem.mp hq
  refine ⟨i, ?_⟩
  unfold particleKeys
  rw [List.mem_map]
  exact ⟨(ps[i], i), List.mem_zipIdx_iff_getElem?.mpr (by simp [hi]), rfl⟩

theorem distinct_particleKeys {ps : List (Particle D)} (hd : (ps.map Particle.id).Nodup) :
    DistinctKeys (particleKeys ps) := by
  unfold DistinctKeys particleKeys
  rw [List.map_map]
  have : (Prod.fst ∘ fun pi : Particle D × Nat => (pi.1.id, (pi.2 : Int))) = Particle.id ∘ Prod.fst := by
    funext x; rfl
  rw [this, ← List.map_map, List.zipIdx_map_fst]
  exact hd

theorem queryOne_ok {ps : List (Particle D)} (hd : (ps.map Particle.id).Nodup)
    (q : Particle D × Nat) (idx : Int) (h : LookupAnswer (particleKeys ps) nullId q.1.id idx) :
    queryOne ps q idx = .ok (currentOf ps q.1, q.2) := by
  unfold queryOne
  rcases h with h | ⟨h, rfl⟩
  · obtain ⟨i, hi, rfl, hid⟩ := mem_particleKeys h
    rw [if_pos (by unfold nullId; omega)]
    unfold Outcome.getI
    rw [if_neg (by omega)]
    simp only [Int.toNat_natCast, Outcome.get_of_lt hi, Outcome.bind_ok]
    unfold currentOf
    rw [find_of_distinct hd (List.getElem_mem hi) hid]
  · rw [if_neg (by simp)]
    unfold currentOf
    have : ps.find? (fun x => x.id == q.1.id) = none := by
      rw [List.find?_eq_none]
      intro x hx
      simp only [beq_iff_eq]
      intro hxe
      obtain ⟨v, hv⟩ := particleKeys_mem hx
      rw [hxe] at hv
      exact h v hv
    rw [this]

theorem queryLoop_ok {ps : List (Particle D)} (hd : (ps.map Particle.id).Nodup) :
    ∀ (qs : List (Particle D × Nat)) (idxs : List Int), idxs.length = qs.length →
    (∀ (i : Nat) q idx, qs[i]? = some q → idxs[i]? = some idx →
      LookupAnswer (particleKeys ps) nullId q.1.id idx) →
    queryLoop ps qs idxs = .ok (qs.map (fun q => (currentOf ps q.1, q.2))) := by
  intro qs
  induction qs with
  | nil => intro idxs hl _; simp at hl; subst hl; rfl
  | cons q qs ih =>
    intro idxs hl h
    match idxs, hl with
    | idx :: idxs, hl =>
      rw [queryLoop, queryOne_ok hd q idx (h 0 q idx (by simp) (by simp)), Outcome.bind_ok,
        ih idxs (by simpa using hl) (fun i q' idx' h1 h2 => h (i+1) q' idx' (by simpa using h1) (by simpa using h2)),
        Outcome.bind_ok]
      simp

/-- The tables of a rank are filled from its particles (`FillParticleHash`, src/snapshot.cpp:61-66). -/
structure TablesFilled (s : SnapRank D) : Prop where
  mapped : ∃ sort, SortSpec sort ∧ s.mapped = MappedTable.fill sort (particleKeys s.particles) nullId
  flat : ∃ (t : FlatTable) (order : List (Int × Int)), order.Perm (particleKeys s.particles) ∧
    t.fill (particleKeys s.particles) order nullId = .ok s.flat

theorem getIndices_ok (needHash : Bool) (s : SnapRank D) (ht : TablesFilled s) (ids : List Int)
    (hids : ids.Pairwise (· ≤ ·)) : ∃ rs, s.getIndices needHash ids = .ok rs ∧
      rs.length = ids.length ∧ ∀ (i : Nat) id r, ids[i]? = some id → rs[i]? = some r →
        LookupAnswer (particleKeys s.particles) nullId id r := by
  unfold SnapRank.getIndices
  cases needHash with
  | true =>
    obtain ⟨sort, hs, e⟩ := ht.mapped
    obtain ⟨h1, h2, _⟩ := C10_batch_lookup hs exampleBsearch_spec (particleKeys s.particles) nullId ids hids
    rw [e]
    exact ⟨_, rfl, h1, h2⟩
  | false =>
    obtain ⟨t, order, hp, e⟩ := ht.flat
    obtain ⟨t', e', h⟩ := C09_flat_lookup t (particleKeys s.particles) order nullId hp
    rw [e] at e'
    cases e'
    choose r hr ha using h
    refine ⟨ids.map r, ?_, by simp, ?_⟩
    · simp only [Bool.false_eq_true, if_false]
      rw [C10_flat_batch]
      refine ⟨by simp, fun i id hi => ⟨r id, by simp [hi], hr id⟩⟩
    · intro i id x h1 h2
      rw [List.getElem?_map, h1] at h2
      simp at h2
      rw [← h2]; exact ha id

theorem zipIdx_map_pair {α β : Type} (f : α → β) (l : List α) :
    l.zipIdx.map (fun q => (f q.1, q.2)) = (l.map f).zipIdx := by
  rw [List.zipIdx_map]; rfl

theorem queryParticles_ok (needHash : Bool) {sort : List (Particle D × Nat) → List (Particle D × Nat)}
    (hsort : SortBySpec (fun q => q.1.id) sort) (s : SnapRank D) (ht : TablesFilled s)
    (hd : (s.particles.map Particle.id).Nodup) (roam : List (Particle D)) :
    queryParticles needHash sort s roam = .ok (roam.map (currentOf s.particles)) := by
  unfold queryParticles
  obtain ⟨rs, e, hl, ha⟩ := getIndices_ok needHash s ht ((sort roam.zipIdx).map (fun q => q.1.id))
    (by rw [List.pairwise_map]; exact hsort.sorted _)
  simp only
  rw [e, Outcome.bind_ok, queryLoop_ok hd _ _ (by simpa using hl)
    (by
      intro i q idx h1 h2
      exact ha i q.1.id idx (by rw [List.getElem?_map, h1]; rfl) h2), Outcome.bind_ok,
    C18_restore_original (roam.map (currentOf s.particles)), Outcome.bind_ok, List.zipIdx_map_fst]
  rw [← zipIdx_map_pair]
  exact (hsort.perm _).map _

/-- Within the range of rank `r` the local lookup is the global one. -/
theorem currentOf_local {P : Nat} {bounds : List Int} {snap : Fin P → List (Particle D)}
    (hp : PartitionedById bounds snap) (r : Fin P) (p : Particle D)
    (hlo : ∀ b, bounds[r.val]? = some b → b ≤ p.id) (hhi : ∀ b, bounds[r.val+1]? = some b → p.id < b) :
    currentOf (allParticles snap) p = currentOf (snap r) p := by
  have hmem : ∀ q, q ∈ allParticles snap ↔ ∃ r, q ∈ snap r := by
    intro q; unfold allParticles
    rw [List.mem_flatten]
    constructor
    · rintro ⟨l, hl, hq⟩
      rw [List.mem_ofFn] at hl
      obtain ⟨r, rfl⟩ := hl
      exact ⟨r, hq⟩
    · rintro ⟨r, hq⟩
      exact ⟨snap r, List.mem_ofFn.mpr ⟨r, rfl⟩, hq⟩
  have hlen := hp.length
  have hin : ∀ (r' : Fin P) q, q ∈ snap r' → q.id = p.id → r' = r := by
    intro r' q hq hid
    have g1 := hp.inRange r' q hq bounds[r'.val] bounds[r'.val+1] (by simp) (by simp)
    have g2 := hlo bounds[r.val] (by simp)
    have g3 := hhi bounds[r.val+1] (by simp)
    by_contra hne
    have : r'.val < r.val ∨ r.val < r'.val := by
      rcases Nat.lt_trichotomy r'.val r.val with h | h | h
      · exact Or.inl h
      · exact absurd (Fin.ext h) hne
      · exact Or.inr h
    rcases this with h | h
    · have := get_mono hp.ascending (show r'.val + 1 ≤ r.val from h) (by omega)
      omega
    · have := get_mono hp.ascending (show r.val + 1 ≤ r'.val from h) (by omega)
      omega
  unfold currentOf
  cases h : (snap r).find? (fun q => q.id == p.id) with
  | none =>
    have : (allParticles snap).find? (fun q => q.id == p.id) = none := by
      rw [List.find?_eq_none]
      intro q hq
      simp only [beq_iff_eq]
      intro hid
      obtain ⟨r', hq'⟩ := (hmem q).mp hq
      have := hin r' q hq' hid
      subst this
      have := List.find?_eq_none.mp h q hq'
      simp [hid] at this
    rw [this]
  | some q =>
    have hq1 := List.find?_some h
    have hq2 := List.mem_of_find?_eq_some h
    simp at hq1
    cases h' : (allParticles snap).find? (fun q => q.id == p.id) with
    | none =>
      have := List.find?_eq_none.mp h' q ((hmem q).mpr ⟨r, hq2⟩)
      simp [hq1] at this
    | some q' =>
      have hq1' := List.find?_some h'
      have hq2' := List.mem_of_find?_eq_some h'
      simp at hq1'
      obtain ⟨r', hr'⟩ := (hmem q').mp hq2'
      have := hin r' q' hr' hq1'
      subst this
      simp only
      exact List.inj_on_of_nodup_map (hp.distinct r') hr' hq2 (by rw [hq1', hq1])

theorem restoreParticles_ok (f : Particle D → Particle D) (halos : List (List (Particle D))) :
    restoreParticles (halos.map List.length) (halos.flatten.map f) = .ok (halos.map (List.map f)) := by
  induction halos with
  | nil => rfl
  | cons h hs ih =>
    simp only [List.map_cons, List.flatten_cons, List.map_append]
    rw [restoreParticles, if_pos (by simp)]
    have e1 : (h.map f ++ hs.flatten.map f).drop h.length = hs.flatten.map f := by
      rw [List.drop_append_of_le_length (by simp), List.drop_of_length_le (by simp)]; simp
    have e2 : (h.map f ++ hs.flatten.map f).take h.length = h.map f := by
      rw [List.take_append_of_le_length (by simp), List.take_of_length_le (by simp)]
    rw [e1, e2, ih, Outcome.bind_ok]

end HBT
