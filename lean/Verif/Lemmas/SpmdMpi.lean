import Verif.Lemmas.SpmdRun
import Verif.Model.SpmdMpi
import Verif.Lemmas.Mpi
import Verif.Lemmas.Origin
set_option linter.unusedSectionVars false
/-!
# The programs of the transport routines do what `Model/Mpi.lean` says
-/
namespace HBT.Spmd
open HBT HBT.Model
variable {P : Nat} {α β τ : Type}

theorem allRanks_inv {f : Fin P → Outcome α} {g : Fin P → α} (h : allRanks P f = .ok g) (r : Fin P) : f r = .ok (g r) := by
  induction P with
  | zero => exact r.elim0
  | succ P ih =>
    rw [allRanks] at h
    obtain ⟨a, h0, h⟩ := bind_eq_ok h
    obtain ⟨g', h1, h⟩ := bind_eq_ok h
    cases h
    refine Fin.cases ?_ (fun i => ?_) r
    · simpa using h0
    · simpa using ih h1 i

theorem slice_length {buf : List α} {d n : Nat} {xs : List α} (h : slice buf d n = .ok xs) : xs.length = n := by
  unfold slice at h
  split at h
  · cases h
    rw [List.length_take, List.length_drop]
    omega
  · cases h

theorem alltoallvLoop_inv {r : Fin P} {sendBuf : Fin P → List α} {sc : Fin P → Fin P → Nat} {rc : Fin P → Nat} {blocks : Fin P → List α}
    {ss : List (Fin P)} {buf out : List α} (hb : ∀ s ∈ ss, (do let d ← disps (sc s) r; slice (sendBuf s) d (sc s r)) = .ok (blocks s))
    (h : alltoallvLoop r sendBuf sc rc ss buf = .ok out) : storeLoop rc blocks ss buf = .ok out := by
  induction ss generalizing buf with
  | nil => exact h
  | cons s ss ih =>
    rw [alltoallvLoop] at h
    obtain ⟨sd, h1, h⟩ := bind_eq_ok h
    obtain ⟨xs, h2, h⟩ := bind_eq_ok h
    obtain ⟨rd, h3, h⟩ := bind_eq_ok h
    obtain ⟨b, h4, h⟩ := bind_eq_ok h
    have := hb s (by simp)
    rw [h1, Outcome.bind_ok, h2] at this
    injection this with e
    rw [storeLoop, h3, Outcome.bind_ok, ← e, h4, Outcome.bind_ok]
    exact ih (fun t ht => hb t (by simp [ht])) h

theorem alltoallvLoop_block {r : Fin P} {sendBuf : Fin P → List α} {sc : Fin P → Fin P → Nat} {rc : Fin P → Nat}
    {ss : List (Fin P)} {buf out : List α} (h : alltoallvLoop r sendBuf sc rc ss buf = .ok out) (s : Fin P) (hs : s ∈ ss) :
    ∃ b, (do let d ← disps (sc s) r; slice (sendBuf s) d (sc s r)) = Outcome.ok b := by
  induction ss generalizing buf with
  | nil => cases hs
  | cons t ss ih =>
    rw [alltoallvLoop] at h
    obtain ⟨sd, h1, h⟩ := bind_eq_ok h
    obtain ⟨xs, h2, h⟩ := bind_eq_ok h
    obtain ⟨rd, h3, h⟩ := bind_eq_ok h
    obtain ⟨b, h4, h⟩ := bind_eq_ok h
    rcases List.mem_cons.1 hs with rfl | hs
    · exact ⟨xs, by rw [h1, Outcome.bind_ok, h2]⟩
    · exact ih h hs

theorem a2aBody_runs {fill : α} {bufSize : Nat} {sc : Fin P → Fin P → Nat} {st st' : A2AState α P}
    (h : a2aTransfer fill bufSize sc st = .ok st') :
    st'.sendCounts = sc ∧ Runs (fun r => a2aBody fill bufSize (sc r) (st.its r) (st.outs r)) (fun r => (st'.its r, st'.outs r)) := by
  unfold a2aTransfer at h
  obtain ⟨totals, h1, h⟩ := bind_eq_ok h
  obtain ⟨packed, h2, h⟩ := bind_eq_ok h
  obtain ⟨recvBufs, h3, h⟩ := bind_eq_ok h
  obtain ⟨outs, h4, h⟩ := bind_eq_ok h
  cases h
  refine ⟨rfl, ?_⟩
  have hb : ∀ s r, ∃ b, (do let d ← disps (sc s) r; slice (packed s).1 d (sc s r)) = Outcome.ok b := fun s r =>
    alltoallvLoop_block (allRanks_inv h3 r) s (List.mem_finRange s)
  choose blocks hblocks using hb
  unfold a2aBody
  refine Runs.bind runs_alltoall ?_
  refine Runs.lift_bind (a := totals) (fun r => allRanks_inv h1 r) ?_
  refine Runs.lift_bind (a := packed) (fun r => allRanks_inv h2 r) ?_
  refine Runs.lift_bind (a := blocks) (fun s => allRanks_ok _ _ (hblocks s)) ?_
  refine Runs.bind (runs_alltoallv (fun r s => ?_)) ?_
  · obtain ⟨d, _, hd⟩ := bind_eq_ok (hblocks s r)
    exact (slice_length hd).symm
  refine Runs.lift_bind (a := recvBufs) (fun r => alltoallvLoop_inv (fun s _ => hblocks s r) (allRanks_inv h3 r)) ?_
  exact Runs.lift_bind (a := outs) (fun r => allRanks_inv h4 r) (Runs.ret _)

theorem a2aPasses_runs {fill : α} {bufSize : Nat} {remainder : Fin P → Fin P → Nat} {n iloop : Nat} {st st' : A2AState α P}
    (h : a2aLoop fill bufSize remainder n iloop st = .ok st') :
    Runs (fun r => a2aPasses fill bufSize (remainder r) n iloop (st.sendCounts r) (st.its r) (st.outs r)) st'.outs := by
  induction n generalizing iloop st with
  | zero => cases h; exact Runs.ret _
  | succ n ih =>
    rw [a2aLoop] at h
    obtain ⟨s1, h1, h⟩ := bind_eq_ok h
    obtain ⟨h2, h3⟩ := a2aBody_runs h1
    have h4 := ih h
    rw [h2] at h4
    exact h3.bind h4

theorem foldl_max_ofFn (f : Fin P → Nat) : (List.ofFn f).foldl max 0 = ((List.finRange P).map f).foldl max 0 := by
  rw [List.ofFn_eq_map]

/-- `MyAllToAll`: if the model for all processes succeeds, the programs of the processes give the same. -/
theorem allToAll_runs {fill : α} {chunksize : Nat} {its : Fin P → Fin P → List α} {counts : Fin P → Fin P → Nat}
    {outs : Fin P → Fin P → List α} (h : myAllToAll fill chunksize its counts = .ok outs) :
    Runs (fun r => allToAll fill chunksize (its r) (counts r)) outs := by
  unfold allToAll
  refine Runs.bind (runs_allreduce1 0 (fun a => Nat.zero_max a)) ?_
  rw [foldl_max_ofFn]
  unfold myAllToAll at h
  change (if numLoops chunksize counts = 0 then _ else _) = _ at h
  change Runs (fun r => if numLoops chunksize counts = 0 then _ else _) outs
  by_cases h0 : numLoops chunksize counts = 0
  · rw [if_pos h0] at h
    simp only [if_pos h0]
    cases h
    exact Runs.ret _
  · rw [if_neg h0] at h
    simp only [if_neg h0]
    obtain ⟨st, h1, h⟩ := bind_eq_ok h
    cases h
    exact a2aPasses_runs h1

theorem readIter_length {it xs rest : List α} {n : Nat} (h : readIter it n = .ok (xs, rest)) : xs.length = n := by
  unfold readIter at h
  split at h
  · cases h
    rw [List.length_take]
    omega
  · cases h

theorem bcastPasses_runs {root : Fin P} {nremainder n iloop buffersize : Nat} {it : List α} {its : Fin P → List α} (hit : its root = it)
    {buffer : Fin P → List α} (hb : ∀ r, (buffer r).length = buffersize) {outs res : Fin P → List α}
    (h : bcastLoop nremainder n iloop buffersize it outs = .ok res) :
    Runs (fun r => bcastPasses root (decide (r = root)) nremainder n iloop buffersize (buffer r) (its r) (outs r)) res := by
  induction n generalizing iloop buffersize it its buffer outs with
  | zero => cases h; exact Runs.ret _
  | succ n ih =>
    rw [bcastLoop] at h
    obtain ⟨x, h1, h⟩ := bind_eq_ok h
    simp only [bcastPasses]
    obtain ⟨size, hsize⟩ : ∃ size, size = if iloop = nremainder then buffersize - 1 else buffersize := ⟨_, rfl⟩
    rw [← hsize] at h1 h ⊢
    have hlen : ∀ r, (if iloop = nremainder then (buffer r).dropLast else buffer r).length = size := by
      intro r
      rw [hsize]
      split
      · rw [List.length_dropLast, hb]
      · exact hb r
    refine Runs.lift_bind (a := fun r => if r = root then x
      else (if iloop = nremainder then (buffer r).dropLast else buffer r, its r)) (fun r => ?_) ?_
    · unfold bcastPack
      by_cases e : r = root
      · subst e
        simp only [decide_true, if_true, hit, h1]
      · simp [e]
    refine Runs.bind (runs_bcast (fun r => ?_)) ?_
    · by_cases e : r = root
      · rw [if_pos e]; exact readIter_length h1
      · rw [if_neg e]; exact hlen r
    · simp only [if_true]
      exact ih (it := x.2) (its := fun r => (if r = root then x
        else (if iloop = nremainder then (buffer r).dropLast else buffer r, its r)).2) (by simp) (fun _ => readIter_length h1) h

/-- `MyBcast`: if the model for all processes succeeds, the programs of the processes give the same. Of the input iterators only that of the
root matters. -/
theorem bcastList_runs {fill : α} {chunksize : Nat} {root : Fin P} {counts : Fin P → Nat} {its : Fin P → List α}
    {res : (Fin P → Nat) × (Fin P → List α)} (h : myBcast chunksize root counts (its root) = .ok res) :
    Runs (fun r => bcastList fill chunksize root r (counts r) (its r)) (fun r => (res.1 r, res.2 r)) := by
  unfold bcastList
  refine Runs.bind runs_bcast1 ?_
  unfold myBcast at h
  change (if ceilDiv (counts root) chunksize = 0 then _ else _) = _ at h
  change Runs (fun r => if ceilDiv (counts root) chunksize = 0 then _ else _) _
  by_cases h0 : ceilDiv (counts root) chunksize = 0
  · rw [if_pos h0] at h
    simp only [if_pos h0]
    cases h
    exact Runs.ret _
  · rw [if_neg h0] at h
    simp only [if_neg h0]
    obtain ⟨outs, h1, h⟩ := bind_eq_ok h
    cases h
    exact (bcastPasses_runs rfl (fun _ => List.length_replicate) h1).bind (Runs.ret _)

theorem resize_length (fill : α) (n : Nat) (x : List α) : (resize fill n x).length = n := by
  unfold resize
  rw [List.length_append, List.length_take, List.length_replicate]
  omega

theorem sizeToInt_small {n : Nat} (h : n < 2147483647) : sizeToInt n = n := by
  unfold sizeToInt
  rw [BitVec.toInt_eq_toNat_cond]
  simp only [BitVec.toNat_ofNat]
  have : n % 2 ^ 32 = n := Nat.mod_eq_of_lt (by omega)
  rw [this, if_pos (by omega)]

/-- `SyncContainer`: the programs of the processes leave everybody with the container of the root, if its size is representable. -/
theorem syncList_runs {fill : α} {root : Fin P} {x : Fin P → List α} (hsmall : (x root).length < 2147483647) :
    Runs (fun r => syncList fill root r (x r)) (fun _ => x root) := by
  unfold syncList
  refine Runs.lift_bind (a := fun _ => ()) (fun r => ?_) ?_
  · unfold syncCheck
    by_cases e : r = root
    · subst e
      rw [sizeToInt_small hsmall, if_neg (by simp; omega)]
    · simp [e]
  refine Runs.bind runs_bcast1 ?_
  refine Runs.lift_bind (a := fun _ => (x root).length) (fun r => ?_) ?_
  · rw [sizeToInt_small hsmall, syncCount, if_neg (by omega), Int.toNat_natCast]
  have := runs_bcast (root := root) (count := (x root).length)
    (buf := fun r => if r = root then x r else resize fill (x root).length (x r)) (fun r => ?_)
  · simpa using this
  · by_cases e : r = root
    · simp [e]
    · simp only [e, if_false]
      exact resize_length _ _ _

end HBT.Spmd
