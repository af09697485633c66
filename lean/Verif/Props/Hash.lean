import Verif.Model.Hash
import Verif.Spec.Lookup
import Mathlib.Data.List.Sort
import Mathlib.Data.List.Nodup
import Mathlib.Data.List.TakeWhile
import Mathlib.Data.Int.Order.Basic
import Mathlib.Tactic.Linarith
/-!
# C08–C10: index tables
-/
namespace HBT.Props
open HBT HBT.Model HBT.Spec

theorem lookupAnswer_unique {pairs : List (Int × Int)} {null key r s : Int}
    (hd : DistinctKeys pairs) (hr : LookupAnswer pairs null key r)
    (hs : LookupAnswer pairs null key s) : r = s := by
  rcases hr with h1 | ⟨h1, e1⟩ <;> rcases hs with h2 | ⟨h2, e2⟩
  · have := List.inj_on_of_nodup_map hd h1 h2 rfl
    simpa using this
  · exact absurd h1 (h2 r)
  · exact absurd h2 (h1 s)
  · rw [e1, e2]

/-! ## C08 -/

/-- C08. For every list of (key, value) pairs, repeated keys allowed, every sorting and binary
search routine meeting its contract, and every non-negative key, the lookup returns the value of
a stored pair with that key if there is one and the null value otherwise. -/
theorem C08_mapped_lookup {sort : List (Int × Int) → List (Int × Int)}
    {bsearch : Int → List (Int × Int) → Option (Int × Int)}
    (hs : SortSpec sort) (hb : BsearchSpec bsearch)
    (pairs : List (Int × Int)) (null key : Int) (hkey : 0 ≤ key) :
    LookupAnswer pairs null key ((MappedTable.fill sort pairs null).getIndex bsearch key) := by
  unfold MappedTable.getIndex MappedTable.fill
  rw [if_neg (by omega)]
  simp only
  cases h : bsearch key (sort pairs) with
  | none =>
    right
    refine ⟨fun v hv => ?_, rfl⟩
    exact hb.missing key _ (hs.sorted pairs) h (key, v) ((hs.perm pairs).mem_iff.mpr hv) rfl
  | some p =>
    left
    have := hb.found key _ p (hs.sorted pairs) h
    simp only
    rw [← this.2]
    exact (hs.perm pairs).mem_iff.mp this.1

/-- C08, exact form for distinct keys: a stored non-negative key returns its own value. -/
theorem C08_mapped_exact {sort : List (Int × Int) → List (Int × Int)}
    {bsearch : Int → List (Int × Int) → Option (Int × Int)}
    (hs : SortSpec sort) (hb : BsearchSpec bsearch)
    (pairs : List (Int × Int)) (null key v : Int) (hkey : 0 ≤ key) (hd : DistinctKeys pairs)
    (hv : (key, v) ∈ pairs) :
    (MappedTable.fill sort pairs null).getIndex bsearch key = v :=
  lookupAnswer_unique hd (C08_mapped_lookup hs hb pairs null key hkey) (Or.inl hv)

/-- C08, negative keys (the null id) always return the null value, and so does every key after
`Clear`. -/
theorem C08_null_cases {sort : List (Int × Int) → List (Int × Int)}
    {bsearch : Int → List (Int × Int) → Option (Int × Int)} (hb : BsearchSpec bsearch)
    (pairs : List (Int × Int)) (null key : Int) :
    (key < 0 → (MappedTable.fill sort pairs null).getIndex bsearch key = null) ∧
    ((MappedTable.fill sort pairs null).clear).getIndex bsearch key = null := by
  constructor
  · intro h; simp [MappedTable.getIndex, MappedTable.fill, h]
  · simp only [MappedTable.getIndex, MappedTable.fill, MappedTable.clear]
    split
    · rfl
    · cases h : bsearch key [] with
      | none => rfl
      | some p =>
        have := (hb.found key [] p List.Pairwise.nil h).1
        simp at this

/-- Routines meeting the two contracts. -/
def exampleSort (l : List (Int × Int)) : List (Int × Int) := l.mergeSort (fun a b => a.1 ≤ b.1)
def exampleBsearch (key : Int) (l : List (Int × Int)) : Option (Int × Int) :=
  l.find? (fun p => p.1 == key)

theorem exampleSort_spec : SortSpec exampleSort where
  perm l := List.mergeSort_perm l _
  sorted l := by
    have := List.pairwise_mergeSort (le := fun a b : Int × Int => decide (a.1 ≤ b.1))
      (by intro a b c; simp; intro h1 h2; omega) (by intro a b; simp; omega) l
    simpa [exampleSort] using this

theorem exampleBsearch_spec : BsearchSpec exampleBsearch where
  found key l p _ h := by
    refine ⟨List.mem_of_find?_eq_some h, ?_⟩
    have := List.find?_some h
    simpa using this
  missing key l _ h p hp := by
    have := List.find?_eq_none.mp h p hp
    simpa using this

example : (MappedTable.fill exampleSort [(30, 0), (10, 1), (20, 2)] (-1)).getIndex
    exampleBsearch 20 = 2 :=
  C08_mapped_exact exampleSort_spec exampleBsearch_spec _ _ _ _ (by decide)
    (by unfold DistinctKeys; decide) (by decide)

/-! ## C09 -/

theorem keyMinMax_spec (k : Int) (pairs : List (Int × Int)) :
    (keyMinMax k pairs).1 ≤ k ∧ k ≤ (keyMinMax k pairs).2 ∧
    ∀ p ∈ pairs, (keyMinMax k pairs).1 ≤ p.1 ∧ p.1 ≤ (keyMinMax k pairs).2 := by
  have gen : ∀ (pairs : List (Int × Int)) (mm : Int × Int),
      let r := pairs.foldl (fun mm p => (if p.1 < mm.1 then p.1 else mm.1,
        if p.1 > mm.2 then p.1 else mm.2)) mm
      r.1 ≤ mm.1 ∧ mm.2 ≤ r.2 ∧ ∀ p ∈ pairs, r.1 ≤ p.1 ∧ p.1 ≤ r.2 := by
    intro pairs
    induction pairs with
    | nil => intro mm; simp
    | cons q qs ih =>
      intro mm
      simp only [List.foldl_cons]
      have := ih (if q.1 < mm.1 then q.1 else mm.1, if q.1 > mm.2 then q.1 else mm.2)
      simp only at this
      obtain ⟨h1, h2, h3⟩ := this
      refine ⟨?_, ?_, ?_⟩
      · refine le_trans h1 ?_; split <;> omega
      · refine le_trans ?_ h2; split <;> omega
      · intro p hp
        rcases List.mem_cons.mp hp with h | h
        · subst h
          exact ⟨le_trans h1 (by split <;> omega), le_trans (by split <;> omega) h2⟩
        · exact h3 p h
  have := gen pairs (k, k)
  exact this

theorem fillFlatLoop_spec (keyMin : Int) (order : List (Int × Int)) (block : List Int)
    (hin : ∀ p ∈ order, keyMin ≤ p.1 ∧ (p.1 - keyMin).toNat < block.length) :
    ∃ out, fillFlatLoop keyMin order block = .ok out ∧ out.length = block.length ∧
      ∀ key, keyMin ≤ key → (key - keyMin).toNat < block.length →
        ∃ r, out[(key - keyMin).toNat]? = some r ∧
          ((key, r) ∈ order ∨ ((∀ v, (key, v) ∉ order) ∧ block[(key - keyMin).toNat]? = some r)) := by
  induction order generalizing block with
  | nil =>
    refine ⟨block, rfl, rfl, fun key _ hk => ⟨block[(key - keyMin).toNat], ?_, ?_⟩⟩
    · simp [hk]
    · right; simp [hk]
  | cons p order ih =>
    have hp := hin p (by simp)
    have hst : storeShifted block keyMin p.1 p.2 = .ok (block.set (p.1 - keyMin).toNat p.2) := by
      unfold storeShifted
      rw [if_neg (by omega), Outcome.set_of_lt hp.2]
    obtain ⟨out, e, hl, h⟩ := ih (block.set (p.1 - keyMin).toNat p.2) (by
      intro q hq
      have := hin q (by simp [hq])
      simpa using this)
    refine ⟨out, by rw [fillFlatLoop, hst, Outcome.bind_ok, e], by simpa using hl, ?_⟩
    intro key h1 h2
    obtain ⟨r, hr, hc⟩ := h key h1 (by simpa using h2)
    refine ⟨r, hr, ?_⟩
    rcases hc with hc | ⟨hno, hb⟩
    · left; simp [hc]
    · rw [List.getElem?_set] at hb
      by_cases hkey : p.1 = key
      · subst hkey
        simp only [if_true, h2, Option.some.injEq] at hb
        left
        rw [← hb]; simp
      · rw [if_neg (by omega)] at hb
        right
        refine ⟨fun v hv => ?_, hb⟩
        rcases List.mem_cons.mp hv with h | h
        · exact hkey (by rw [← h])
        · exact hno v h

/-- C09. For every earlier content of the flat table, every list of (key, value) pairs and every
schedule of the parallel fill loop, filling succeeds without touching memory outside the block
and every lookup is in bounds and correct: value of a stored pair with that key, or null. -/
theorem C09_flat_lookup (t : FlatTable) (pairs order : List (Int × Int)) (null : Int)
    (hsched : order.Perm pairs) :
    ∃ t', t.fill pairs order null = .ok t' ∧
      ∀ key, ∃ r, t'.getIndex key = .ok r ∧ LookupAnswer pairs null key r := by
  cases pairs with
  | nil =>
    refine ⟨({ t with nullIndex := null }).clear, rfl, fun key => ⟨null, ?_, Or.inr ⟨by simp, rfl⟩⟩⟩
    unfold FlatTable.clear FlatTable.getIndex
    by_cases h : t.keySpan = 0
    · simp [h]
    · simp [h]
  | cons p rest =>
    obtain ⟨h1, h2, h3⟩ := keyMinMax_spec p.1 rest
    have hall : ∀ q ∈ p :: rest, (keyMinMax p.1 rest).1 ≤ q.1 ∧ q.1 ≤ (keyMinMax p.1 rest).2 := by
      intro q hq
      rcases List.mem_cons.mp hq with h | h
      · rw [h]; exact ⟨h1, h2⟩
      · exact h3 q h
    set kmin := (keyMinMax p.1 rest).1 with hkmin
    set kmax := (keyMinMax p.1 rest).2 with hkmax
    obtain ⟨out, e, hl, hlook⟩ := fillFlatLoop_spec kmin order
      (List.replicate (kmax - kmin + 1).toNat null) (by
        intro q hq
        have := hall q (hsched.mem_iff.mp hq)
        refine ⟨this.1, ?_⟩
        simp; omega)
    refine ⟨⟨null, out, kmax - kmin + 1, kmin, kmax⟩, ?_, ?_⟩
    · unfold FlatTable.fill
      simp only [← hkmin, ← hkmax]
      rw [e, Outcome.bind_ok]
    · intro key
      unfold FlatTable.getIndex
      simp only
      by_cases hout : key < kmin ∨ key > kmax
      · rw [if_pos (Or.inr hout)]
        refine ⟨null, rfl, Or.inr ⟨fun v hv => ?_, rfl⟩⟩
        have := hall _ hv
        simp only at this
        omega
      · rw [if_neg (by omega)]
        have hlen : (key - kmin).toNat < (List.replicate (kmax - kmin + 1).toNat null).length := by
          simp; omega
        obtain ⟨r, hr, hc⟩ := hlook key (by omega) hlen
        refine ⟨r, ?_, ?_⟩
        · unfold Outcome.getI Outcome.get
          rw [if_neg (by omega), hr]
        · rcases hc with hc | ⟨hno, hb⟩
          · exact Or.inl (hsched.mem_iff.mp hc)
          · right
            refine ⟨fun v hv => hno v (hsched.mem_iff.mpr hv), ?_⟩
            rw [List.getElem?_replicate] at hb
            split at hb
            · simpa using hb.symm
            · simp at hb

/-- C09, agreement. With distinct keys the two tables answer every non-negative key alike, so
results do not depend on which table the configuration selects. -/
theorem C09_tables_agree {sort : List (Int × Int) → List (Int × Int)}
    {bsearch : Int → List (Int × Int) → Option (Int × Int)}
    (hs : SortSpec sort) (hb : BsearchSpec bsearch)
    (t t' : FlatTable) (pairs order : List (Int × Int)) (null : Int)
    (hsched : order.Perm pairs) (hd : DistinctKeys pairs)
    (hfill : t.fill pairs order null = .ok t') (key : Int) (hkey : 0 ≤ key) :
    t'.getIndex key = .ok ((MappedTable.fill sort pairs null).getIndex bsearch key) := by
  obtain ⟨t2, e, h⟩ := C09_flat_lookup t pairs order null hsched
  rw [hfill] at e
  cases e
  obtain ⟨r, hr, ha⟩ := h key
  rw [hr, lookupAnswer_unique hd ha (C08_mapped_lookup hs hb pairs null key hkey)]

/-- A sequence of `Fill`/`Clear` calls on one flat table. -/
inductive FlatOp where
  | fill (pairs order : List (Int × Int)) (null : Int)
  | clear

def runFlat (t : FlatTable) : List FlatOp → Outcome FlatTable
  | [] => .ok t
  | .fill p o n :: ops => do
    let t ← t.fill p o n
    runFlat t ops
  | .clear :: ops => runFlat t.clear ops

/-- C09, reuse. After any history of `Fill` and `Clear` calls that ends with a `Fill`, lookups
reflect that last `Fill` alone. -/
theorem C09_reuse (t : FlatTable) (ops : List FlatOp)
    (hvalid : ∀ p o n, FlatOp.fill p o n ∈ ops → o.Perm p)
    (pairs order : List (Int × Int)) (null : Int) (hsched : order.Perm pairs) :
    ∃ t', runFlat t (ops ++ [.fill pairs order null]) = .ok t' ∧
      ∀ key, ∃ r, t'.getIndex key = .ok r ∧ LookupAnswer pairs null key r := by
  induction ops generalizing t with
  | nil =>
    obtain ⟨t', e, h⟩ := C09_flat_lookup t pairs order null hsched
    exact ⟨t', by simp [runFlat, e], h⟩
  | cons op ops ih =>
    cases op with
    | clear => exact ih t.clear (fun p o n h => hvalid p o n (by simp [h]))
    | fill p o n =>
      obtain ⟨t1, e, _⟩ := C09_flat_lookup t p o n (hvalid p o n (by simp))
      obtain ⟨t', e', h⟩ := ih t1 (fun p o n h => hvalid p o n (by simp [h]))
      exact ⟨t', by simp only [List.cons_append, runFlat, e, Outcome.bind_ok, e'], h⟩

example : (do
    let t ← runFlat ⟨0, [], 0, 0, 0⟩ [.fill [(7, 70)] [(7, 70)] (-1), .clear,
      .fill [(30, 0), (12, 1), (20, 2)] [(20, 2), (30, 0), (12, 1)] (-1)]
    t.getIndices [11, 12, 13, 20, 30, 31])
    = .ok [-1, 1, -1, 2, 0, -1] := by decide

/-! ## C10 -/

/-- Leftmost pair with the key. -/
def firstMatch (m : List (Int × Int)) (null key : Int) : Int :=
  match m.find? (fun p => p.1 == key) with
  | some p => p.2
  | none => null

theorem firstMatch_answer (m : List (Int × Int)) (null key : Int) :
    LookupAnswer m null key (firstMatch m null key) := by
  unfold firstMatch
  cases h : m.find? (fun p => p.1 == key) with
  | none =>
    right
    refine ⟨fun v hv => ?_, rfl⟩
    have := List.find?_eq_none.mp h _ hv
    simp at this
  | some p =>
    left
    have h1 := List.find?_some h
    have h2 := List.mem_of_find?_eq_some h
    simp only [beq_iff_eq] at h1
    rw [← h1]; exact h2

theorem firstMatch_append_right {a b : List (Int × Int)} {null key : Int}
    (h : ∀ p ∈ a, p.1 ≠ key) : firstMatch (a ++ b) null key = firstMatch b null key := by
  unfold firstMatch
  rw [List.find?_append]
  have : a.find? (fun p => p.1 == key) = none := by
    rw [List.find?_eq_none]; intro p hp; simpa using h p hp
  simp [this]

theorem firstMatch_append_left {a b : List (Int × Int)} {null key : Int}
    (h : ∀ p ∈ b, p.1 ≠ key) : firstMatch (a ++ b) null key = firstMatch a null key := by
  unfold firstMatch
  rw [List.find?_append]
  have : b.find? (fun p => p.1 == key) = none := by
    rw [List.find?_eq_none]; intro p hp; simpa using h p hp
  simp [this]

theorem lowerBound_take (m : List (Int × Int)) (key : Int) :
    ∀ p ∈ m.take (lowerBound m key), p.1 < key := by
  intro p hp
  have hpre : m.take (lowerBound m key) = m.takeWhile (fun p => decide (p.1 < key)) :=
    (List.prefix_iff_eq_take.mp (List.takeWhile_prefix _)).symm
  rw [hpre] at hp
  have := List.mem_takeWhile_imp hp
  simpa using this

theorem lowerBound_getElem (m : List (Int × Int)) (key : Int) (p : Int × Int)
    (h : m[lowerBound m key]? = some p) : key ≤ p.1 := by
  unfold lowerBound at h
  induction m with
  | nil => simp at h
  | cons q m ih =>
    rw [List.takeWhile_cons] at h
    split at h
    · simp only [List.length_cons, List.getElem?_cons_succ] at h
      exact ih h
    · rename_i hq
      simp at h hq
      rw [← h]; exact hq

theorem getIndicesRecursive_eq (null : Int) : ∀ (n : Nat) (ids : List Int) (m : List (Int × Int)),
    ids.length = n → ids.Pairwise (· ≤ ·) → m.Pairwise (fun a b => a.1 ≤ b.1) →
    getIndicesRecursive null ids m = ids.map (firstMatch m null) := by
  intro n
  induction n using Nat.strong_induction_on with
  | _ n ih =>
    intro ids m hn hids hm
    rw [getIndicesRecursive]
    split
    · rename_i hemp
      have : m = [] := List.isEmpty_iff.mp hemp
      subst this
      apply List.map_congr_left
      intro a _; simp [firstMatch]
    · split
      · rename_i _ h0
        have : ids = [] := List.length_eq_zero_iff.mp h0
        simp [this]
      · rename_i hne h0
        simp only
        set imid := ids.length / 2 with himid
        have hmid : imid < ids.length := by omega
        set key := ids[imid] with hkey
        set mid := lowerBound m key with hmiddef
        have hsplit : ids = ids.take imid ++ [key] ++ ids.drop (imid+1) := by
          conv_lhs => rw [← List.take_append_drop imid ids, List.drop_eq_getElem_cons hmid]
          simp [hkey]
        have hleft : ∀ k ∈ ids.take imid, k ≤ key := by
          intro k hk
          rw [hsplit, List.append_assoc, List.pairwise_append] at hids
          exact hids.2.2 k hk key (by simp)
        have hright : ∀ k ∈ ids.drop (imid+1), key ≤ k := by
          intro k hk
          rw [hsplit, List.pairwise_append] at hids
          exact hids.2.2 key (by simp) k hk
        have hltake := lowerBound_take m key
        rw [← hmiddef] at hltake
        have hgele : ∀ p ∈ m.drop mid, key ≤ p.1 := by
          intro p hp
          cases hd : m[mid]? with
          | none =>
            rw [List.getElem?_eq_none_iff] at hd
            rw [List.drop_eq_nil_of_le hd] at hp
            simp at hp
          | some q =>
            have hq := lowerBound_getElem m key q hd
            have hlt : mid < m.length := by
              rcases Nat.lt_or_ge mid m.length with h | h
              · exact h
              · rw [List.getElem?_eq_none h] at hd; simp at hd
            have hdrop : m.drop mid = q :: m.drop (mid+1) := by
              rw [List.drop_eq_getElem_cons hlt]
              rw [List.getElem?_eq_getElem hlt] at hd
              simp at hd; rw [hd]
            rw [hdrop] at hp
            rcases List.mem_cons.mp hp with h | h
            · rw [h]; exact hq
            · have hmp := hm.sublist (List.drop_sublist mid m)
              rw [hdrop, List.pairwise_cons] at hmp
              exact le_trans hq (hmp.1 p h)
        -- right half: dropping the smaller keys does not matter
        have hR : getIndicesRecursive null (ids.drop (imid+1)) (m.drop mid)
            = (ids.drop (imid+1)).map (firstMatch m null) := by
          rw [ih (ids.drop (imid+1)).length (by simp; omega) _ _ rfl
            (hids.sublist (List.drop_sublist _ _)) (hm.sublist (List.drop_sublist _ _))]
          apply List.map_congr_left
          intro k hk
          conv_rhs => rw [← List.take_append_drop mid m]
          rw [firstMatch_append_right]
          intro p hp
          have h1 := hltake p hp
          have h2 := hright k hk
          omega
        -- the left half with the entries up to `e`, where later entries have keys above `key`
        have hL : ∀ e, (∀ p ∈ m.drop e, ∀ k ∈ ids.take imid,
              p.1 = k → firstMatch (m.take e) null k = firstMatch m null k) →
            getIndicesRecursive null (ids.take imid) (m.take e)
              = (ids.take imid).map (firstMatch m null) := by
          intro e he
          rw [ih (ids.take imid).length (by simp; omega) _ _ rfl
            (hids.sublist (List.take_sublist _ _)) (hm.sublist (List.take_sublist _ _))]
          apply List.map_congr_left
          intro k hk
          by_cases hex : ∃ p ∈ m.drop e, p.1 = k
          · obtain ⟨p, hp, hpk⟩ := hex
            exact he p hp k hk hpk
          · conv_rhs => rw [← List.take_append_drop e m]
            rw [firstMatch_append_left]
            intro p hp h
            exact hex ⟨p, hp, h⟩
        have hmiss : (∀ p ∈ m.drop mid, key < p.1) →
            getIndicesRecursive null (ids.take imid) (m.take mid) ++ [null] ++
              getIndicesRecursive null (ids.drop (imid+1)) (m.drop mid)
            = ids.map (firstMatch m null) := by
          intro hgt
          rw [hL mid (by
            intro p hp k hk hpk
            have h1 := hgt p hp
            have h2 := hleft k hk
            omega), hR]
          conv_rhs => rw [hsplit]
          rw [List.map_append, List.map_append]
          congr 2
          simp only [List.map_cons, List.map_nil, List.cons.injEq, and_true]
          symm
          have ha := firstMatch_answer m null key
          rcases ha with h | h
          · exfalso
            rw [← List.take_append_drop mid m] at h
            rcases List.mem_append.mp h with h | h
            · have := hltake _ h; simp at this
            · have := hgt _ h; simp at this
          · exact h.2
        cases hd : m[mid]? with
        | none =>
          simp only
          apply hmiss
          intro p hp
          rw [List.getElem?_eq_none_iff] at hd
          rw [List.drop_eq_nil_of_le hd] at hp
          simp at hp
        | some q =>
          have hlt : mid < m.length := by
            rcases Nat.lt_or_ge mid m.length with h | h
            · exact h
            · rw [List.getElem?_eq_none h] at hd; simp at hd
          have hdrop : m.drop mid = q :: m.drop (mid+1) := by
            rw [List.drop_eq_getElem_cons hlt]
            rw [List.getElem?_eq_getElem hlt] at hd
            simp at hd; rw [hd]
          simp only
          split
          · rename_i hq
            apply hmiss
            intro p hp
            rw [hdrop] at hp
            rcases List.mem_cons.mp hp with h | h
            · rw [h]; exact hq
            · have hmp := hm.sublist (List.drop_sublist mid m)
              rw [hdrop, List.pairwise_cons] at hmp
              exact lt_of_lt_of_le hq (hmp.1 p h)
          · rename_i hq
            have hqk : q.1 = key := le_antisymm (not_lt.mp hq) (lowerBound_getElem m key q hd)
            have htake : m.take (mid+1) = m.take mid ++ [q] := by
              rw [List.take_add_one, hd]; rfl
            have hmsplit : m = m.take mid ++ (q :: m.drop (mid+1)) := by
              rw [← hdrop, List.take_append_drop]
            have hfm : firstMatch m null key = q.2 := by
              rw [hmsplit, firstMatch_append_right]
              · simp [firstMatch, hqk]
              · intro p hp h; have := hltake p hp; omega
            rw [hL (mid+1) (by
              intro p hp k hk hpk
              have hmp := hm.sublist (List.drop_sublist mid m)
              rw [hdrop, List.pairwise_cons] at hmp
              have h1 := hmp.1 p hp
              have h2 := hleft k hk
              have hke : k = key := by omega
              rw [hke, hfm, htake, firstMatch_append_right]
              · simp [firstMatch, hqk]
              · intro p hp h; have := hltake p hp; omega), hR]
            conv_rhs => rw [hsplit]
            rw [List.map_append, List.map_append]
            congr 2
            simp [hfm]

/-- C10. For every table and every list of ids in ascending order (repeats allowed), the batch
lookup answers each id correctly, and with distinct keys that are all non-negative it gives
exactly what separate lookups give. -/
theorem C10_batch_lookup {sort : List (Int × Int) → List (Int × Int)}
    {bsearch : Int → List (Int × Int) → Option (Int × Int)}
    (hs : SortSpec sort) (hb : BsearchSpec bsearch)
    (pairs : List (Int × Int)) (null : Int) (ids : List Int) (hids : ids.Pairwise (· ≤ ·)) :
    ((MappedTable.fill sort pairs null).getIndices ids).length = ids.length ∧
    (∀ (i : Nat) id r, ids[i]? = some id →
      ((MappedTable.fill sort pairs null).getIndices ids)[i]? = some r →
      LookupAnswer pairs null id r) ∧
    (DistinctKeys pairs → (∀ p ∈ pairs, 0 ≤ p.1) →
      (MappedTable.fill sort pairs null).getIndices ids =
        ids.map ((MappedTable.fill sort pairs null).getIndex bsearch)) := by
  have he : (MappedTable.fill sort pairs null).getIndices ids
      = ids.map (firstMatch (sort pairs) null) :=
    getIndicesRecursive_eq null _ ids (sort pairs) rfl hids (hs.sorted pairs)
  have hans : ∀ id, LookupAnswer pairs null id (firstMatch (sort pairs) null id) := by
    intro id
    rcases firstMatch_answer (sort pairs) null id with h | ⟨h, h'⟩
    · exact Or.inl ((hs.perm pairs).mem_iff.mp h)
    · exact Or.inr ⟨fun v hv => h v ((hs.perm pairs).mem_iff.mpr hv), h'⟩
  refine ⟨by simp [he], ?_, ?_⟩
  · intro i id r h1 h2
    rw [he, List.getElem?_map, h1] at h2
    simp at h2
    rw [← h2]; exact hans id
  · intro hd hpos
    rw [he]
    apply List.map_congr_left
    intro id _
    by_cases hneg : id < 0
    · rw [((C08_null_cases hb pairs null id).1 hneg)]
      rcases hans id with h | h
      · have := hpos _ h; simp at this; omega
      · exact h.2
    · exact lookupAnswer_unique hd (hans id) (C08_mapped_lookup hs hb pairs null id (by omega))

/-- C10 for the flat table: the batch call is the sequence of single lookups. -/
theorem C10_flat_batch (t : FlatTable) (ids rs : List Int) :
    t.getIndices ids = .ok rs ↔
      rs.length = ids.length ∧ ∀ (i : Nat) id, ids[i]? = some id →
        ∃ r, rs[i]? = some r ∧ t.getIndex id = .ok r := by
  induction ids generalizing rs with
  | nil =>
    simp [FlatTable.getIndices, eq_comm]
  | cons k ks ih =>
    rw [FlatTable.getIndices]
    constructor
    · intro h
      cases hk : t.getIndex k with
      | ok r =>
        rw [hk, Outcome.bind_ok] at h
        cases hks : t.getIndices ks with
        | ok rs' =>
          rw [hks, Outcome.bind_ok] at h
          cases h
          obtain ⟨hl, hall⟩ := (ih rs').mp hks
          refine ⟨by simp [hl], ?_⟩
          intro i id hi
          cases i with
          | zero => simp at hi; subst hi; exact ⟨r, by simp, hk⟩
          | succ i => simpa using hall i id (by simpa using hi)
        | ub => rw [hks] at h; simp at h
        | abort => rw [hks] at h; simp at h
        | diverge => rw [hks] at h; simp at h
      | ub => rw [hk] at h; simp at h
      | abort => rw [hk] at h; simp at h
      | diverge => rw [hk] at h; simp at h
    · rintro ⟨hl, hall⟩
      match rs, hl with
      | r :: rs, hl =>
        obtain ⟨r0, h0, h0'⟩ := hall 0 k (by simp)
        simp at h0
        subst h0
        have := (ih rs).mpr ⟨by simpa using hl, fun i id hi => by
          have := hall (i+1) id (by simpa using hi)
          simpa using this⟩
        rw [h0', Outcome.bind_ok, this, Outcome.bind_ok]

/-- The ascending order of the ids is needed: with unsorted ids the batch call misses keys. -/
theorem C10_needs_sorted_ids :
    getIndicesRecursive (-1) [5, 1, 5] [(1, 10), (5, 50)] ≠ [50, 10, 50] := by
  simp [getIndicesRecursive, lowerBound]

/-- The batch call does not reject negative ids: with a negative key stored it differs from the
single lookup. -/
theorem C10_negative_key_differs :
    (MappedTable.fill exampleSort [(-3, 7)] (-1)).getIndices [-3] = [7] ∧
    (MappedTable.fill exampleSort [(-3, 7)] (-1)).getIndex exampleBsearch (-3) = -1 := by
  constructor
  · simp [MappedTable.getIndices, MappedTable.fill, exampleSort, getIndicesRecursive, lowerBound]
  · decide

example : (MappedTable.fill exampleSort [(30, 0), (10, 1), (20, 2)] (-1)).getIndices
      [5, 10, 10, 25, 30] =
    [5, 10, 10, 25, 30].map
      ((MappedTable.fill exampleSort [(30, 0), (10, 1), (20, 2)] (-1)).getIndex exampleBsearch) :=
  (C10_batch_lookup exampleSort_spec exampleBsearch_spec _ _ _ (by decide)).2.2
    (by unfold DistinctKeys; decide) (by decide)

end HBT.Props
