import Verif.Lemmas.SpmdMpi
import Verif.Model.SpmdPartition
import Verif.Lemmas.Partition
set_option linter.unusedSectionVars false
/-!
# The programs of the particle redistribution do what `Model/Partition.lean` says
-/
namespace HBT.Spmd
open HBT HBT.Model
variable {P : Nat} {D α τ : Type}

/-- A reduction in a communicator whose first member is `m`. -/
theorem semReduce_members (op : τ → τ → τ) (m : Fin P) (rest : List (Fin P)) (x : Fin P → τ) (hn : (m :: rest).Nodup) :
    semReduce op 0 ((m :: rest).map x)
      = some ((m :: rest).map (fun r => if r = m then some ((rest.map x).foldl op (x m)) else none)) := by
  unfold semReduce
  rw [List.map_cons]
  simp only
  rw [if_pos (by simp)]
  congr 1
  rw [List.map_cons, if_pos rfl, List.length_cons, List.range_succ_eq_map, List.map_cons, if_pos rfl, List.map_map]
  congr 1
  apply List.ext_getElem
  · simp
  · intro i h1 h2
    simp only [List.length_map] at h2
    have : rest[i] ≠ m := fun e => (List.nodup_cons.1 hn).1 (e ▸ List.getElem_mem h2)
    simp [this]

theorem semAllreduce_members (op : τ → τ → τ) (m : Fin P) (rest : List (Fin P)) (x : Fin P → τ) :
    semAllreduce op 1 ((m :: rest).map (fun r => [x r])) = some ((m :: rest).map (fun _ => [(rest.map x).foldl op (x m)])) := by
  unfold semAllreduce
  rw [List.map_cons]
  simp only
  rw [if_pos (by intro b hb; simp at hb; rcases hb with rfl | ⟨r, _, rfl⟩ <;> rfl)]
  have : rest.map (fun r => [x r]) = (rest.map x).map (fun b => [b]) := by rw [List.map_map]; rfl
  rw [this, foldl_single]
  congr 1
  simp [Function.comp_def]

/-- The processes with particles. -/
def holders (ids : Fin P → List Int) : List (Fin P) := (List.finRange P).filter (fun q => !(ids q).isEmpty)

theorem mem_holders (ids : Fin P → List Int) (r : Fin P) : r ∈ holders ids ↔ ids r ≠ [] := by
  simp [holders]

theorem holders_nodup (ids : Fin P → List Int) : (holders ids).Nodup := (List.nodup_finRange P).filter _

theorem color_members {p : Fin P → Bool} {r : Fin P} (h : p r = true) :
    (List.finRange P).filter (fun q => decide ((if p q = true then 0 else 1) = (if p r = true then 0 else 1))) = (List.finRange P).filter p := by
  apply List.filter_congr
  intro q _
  rw [if_pos h]
  cases hq : p q <;> simp

theorem filterMap_filter_map {γ δ : Type} (l : List γ) (f : γ → Option δ) (p : γ → Bool) (g : γ → δ)
    (h1 : ∀ a ∈ l, p a = true → f a = some (g a)) (h2 : ∀ a ∈ l, p a = false → f a = none) : l.filterMap f = (l.filter p).map g := by
  induction l with
  | nil => rfl
  | cons a l ih =>
    have ih' := ih (fun b hb => h1 b (by simp [hb])) (fun b hb => h2 b (by simp [hb]))
    cases hp : p a with
    | true => rw [List.filterMap_cons_some (h1 a (by simp) hp), List.filter_cons_of_pos hp, List.map_cons, ih']
    | false => rw [List.filterMap_cons_none (h2 a (by simp) hp), List.filter_cons_of_neg (by simp [hp]), ih']

theorem contigLocal_first (n : Nat) (ids : Fin P → List Int) {r : Fin P} {a : Int} {l : List Int}
    (h : (List.finRange P).find? (fun s => !(ids s).isEmpty) = some r) (e : ids r = a :: l) :
    contigLocal n ids r = (decide (reduceMax ids ((a :: l).getLast (by simp)) - reduceMin ids a + 1 = n), reduceMin ids a) := by
  unfold contigLocal
  split
  · rename_i e'; rw [e] at e'; cases e'
  · rename_i a' l' e'
    rw [e] at e'
    cases e'
    rw [if_pos h]

theorem contigLocal_other (n : Nat) (ids : Fin P → List Int) {r : Fin P}
    (h : (List.finRange P).find? (fun s => !(ids s).isEmpty) ≠ some r) : contigLocal n ids r = (false, 0) := by
  unfold contigLocal
  split
  · rfl
  · rw [if_neg h]

theorem contigPart_runs (ctx n : Nat) (ids : Fin P → List Int) :
    Runs (fun r => contigPart ⟨ctx, (List.finRange P).filter (fun q => decide
      ((if (ids q).isEmpty then 1 else 0) = (if (ids r).isEmpty then 1 else 0)))⟩ n r (ids r)) (contigLocal n ids) := by
  cases hM : holders ids with
  | nil =>
    have hall : ∀ r, ids r = [] := by
      intro r
      by_contra h
      have := (mem_holders ids r).2 h
      rw [hM] at this
      cases this
    refine (Runs.ret (contigLocal n ids)).congr (fun r => ?_)
    unfold contigLocal
    simp only [hall r]
    rfl
  | cons m rest =>
    have hn : (m :: rest).Nodup := hM ▸ holders_nodup ids
    have hmem : ∀ r, r ∈ m :: rest ↔ ids r ≠ [] := fun r => hM ▸ mem_holders ids r
    have hfind : (List.finRange P).find? (fun s => !(ids s).isEmpty) = some m := by
      rw [← List.head?_filter]
      show (holders ids).head? = _
      rw [hM]; rfl
    have hC : ∀ r, ids r ≠ [] → (List.finRange P).filter (fun q => decide
        ((if (ids q).isEmpty then 1 else 0) = (if (ids r).isEmpty then 1 else 0))) = m :: rest := by
      intro r hr
      rw [← hM]
      apply List.filter_congr
      intro q _
      have : (ids r).isEmpty = false := by simpa using hr
      rw [this]
      cases (ids q).isEmpty <;> simp
    obtain ⟨x1, hx1⟩ : ∃ x1 : Fin P → Int, ∀ r a l, ids r = a :: l → x1 r = a :=
      ⟨fun r => (ids r).headD 0, fun r a l e => by simp [e]⟩
    obtain ⟨x2, hx2⟩ : ∃ x2 : Fin P → Int, ∀ r a l, ids r = a :: l → x2 r = (a :: l).getLast (by simp) :=
      ⟨fun r => (ids r).getLast?.getD 0, fun r a l e => by
        show (ids r).getLast?.getD 0 = _
        rw [e, List.getLast?_eq_some_getLast (by simp)]
        rfl⟩
    obtain ⟨v1, hv1⟩ : ∃ v, v = (rest.map x1).foldl min (x1 m) := ⟨_, rfl⟩
    obtain ⟨v2, hv2⟩ : ∃ v, v = (rest.map x2).foldl max (x2 m) := ⟨_, rfl⟩
    have s1 := semReduce_members min m rest x1 hn
    have s2 := semReduce_members max m rest x2 hn
    rw [← hv1] at s1
    rw [← hv2] at s2
    have f1 : ∀ a l, ids m = a :: l → reduceMin ids a = v1 := by
      intro a l e
      unfold reduceMin
      rw [filterMap_filter_map _ _ (fun q => !(ids q).isEmpty) x1]
      · show ((holders ids).map x1).foldl min a = v1
        rw [hM, List.map_cons, List.foldl_cons, hx1 m a l e, min_self, hv1, hx1 m a l e]
      · intro q _ hq
        cases e : ids q with
        | nil => simp [e] at hq
        | cons b l' => rw [hx1 q b l' e]; rfl
      · intro q _ hq
        have : ids q = [] := by simpa using hq
        rw [this]; rfl
    have f2 : ∀ a l, ids m = a :: l → reduceMax ids ((a :: l).getLast (by simp)) = v2 := by
      intro a l e
      unfold reduceMax
      rw [filterMap_filter_map _ _ (fun q => !(ids q).isEmpty) x2]
      · show ((holders ids).map x2).foldl max _ = v2
        rw [hM, List.map_cons, List.foldl_cons, hx2 m a l e, max_self, hv2, hx2 m a l e]
      · intro q _ hq
        cases e : ids q with
        | nil => simp [e] at hq
        | cons b l' => rw [hx2 q b l' e, List.getLast?_eq_some_getLast (by simp)]
      · intro q _ hq
        have : ids q = [] := by simpa using hq
        rw [this]; rfl
    have key : Runs (fun r => if r ∈ m :: rest then subReduce ⟨ctx, m :: rest⟩ min (x1 r) >>= fun idMin =>
        subReduce ⟨ctx, m :: rest⟩ max (x2 r) >>= fun idMax =>
          (if (m :: rest).head? = some r then (match idMin, idMax with
            | some mn, some mx => Prog.ret (decide (mx - mn + 1 = (n : Int)), mn)
            | _, _ => Prog.fail) else Prog.ret (false, 0)) else Prog.ret (false, 0)) (contigLocal n ids) := by
      refine Runs.sub (C := ⟨ctx, m :: rest⟩) (κ := .reduce Int min 0) (x := x1) (by simp) hn s1 ?_
      refine Runs.sub (C := ⟨ctx, m :: rest⟩) (κ := .reduce Int max 0) (x := x2) (by simp) hn s2 ?_
      refine (Runs.ret (contigLocal n ids)).congr (fun r => ?_)
      by_cases hr : r ∈ m :: rest
      · rw [if_pos hr]
        cases e : ids r with
        | nil => exact absurd e ((hmem r).1 hr)
        | cons a l =>
          by_cases hrm : r = m
          · subst hrm
            rw [contigLocal_first n ids hfind e, f1 _ _ e, f2 _ _ e]
            simp
            rfl
          · have : ¬ m = r := fun h => hrm h.symm
            rw [contigLocal_other n ids (by rw [hfind]; simpa using this)]
            simp [this]
            rfl
      · rw [if_neg hr]
        have : ids r = [] := by
          by_contra h
          exact hr ((hmem r).2 h)
        unfold contigLocal
        simp [this]
    refine key.congr (fun r => ?_)
    by_cases hr : r ∈ m :: rest
    · rw [if_pos hr, hC r ((hmem r).1 hr)]
      cases e : ids r with
      | nil => exact absurd e ((hmem r).1 hr)
      | cons a l => 
        rw [contigPart, hx1 r a l e, hx2 r a l e]
        rfl
    · rw [if_neg hr]
      have : ids r = [] := by
        by_contra h
        exact hr ((hmem r).2 h)
      rw [this]
      rfl

theorem contiguousId_runs (n : Nat) (ids : Fin P → List Int) :
    Runs (fun r => contiguousId n r (ids r)) (isContiguousId n ids) := by
  unfold contiguousId
  refine Runs.split (fun ctx => ?_)
  refine Runs.bind (contigPart_runs ctx n ids) ?_
  refine Runs.bind (runs_allreduce1 false (fun a => by simp)) ?_
  refine Runs.bind (runs_allreduce1 0 (fun a => int_zero_lor a)) ?_
  refine (Runs.ret (isContiguousId n ids)).congr (fun r => ?_)
  unfold isContiguousId
  simp only [List.map_map, List.ofFn_eq_map]
  rfl

theorem stridePid_none_iff {k steps : Nat} {ids : List Int} {off : Nat} {t : Option (Nat × Int)}
    (h : stridePid k steps ids off = .ok t) : t = none ↔ ids.length - off = 0 := by
  unfold stridePid at h
  by_cases h0 : ids.length - off = 0
  · rw [if_pos h0] at h
    cases h; simp [h0]
  · rw [if_neg h0] at h
    by_cases hk : k = 0
    · rw [if_pos hk] at h; cases h
    · rw [if_neg hk] at h
      obtain ⟨n, hn⟩ : ∃ n, n = (let n := steps / k
        let n := if n * k < steps then n + 1 else n
        if n > ids.length - off then ids.length - off else n) := ⟨_, rfl⟩
      change (if off + (let n := steps / k
        let n := if n * k < steps then n + 1 else n
        if n > ids.length - off then ids.length - off else n) = 0 then Outcome.ub else Outcome.get ids (off + (let n := steps / k
        let n := if n * k < steps then n + 1 else n
        if n > ids.length - off then ids.length - off else n) - 1) >>= fun pid => .ok (some ((let n := steps / k
        let n := if n * k < steps then n + 1 else n
        if n > ids.length - off then ids.length - off else n), pid))) = _ at h
      rw [← hn] at h
      split at h
      · cases h
      · obtain ⟨pid, _, h⟩ := bind_eq_ok h
        cases h
        simp [h0]

theorem stridePart_runs {ctx steps : Nat} {ids : Fin P → List Int} {off inc : Fin P → Nat} (h : strideStep ids steps off = .ok inc) :
    Runs (fun r => lift (stridePid ((List.finRange P).filter (fun q => decide
        ((if (ids q).length - off q = 0 then 1 else 0) = (if (ids r).length - off r = 0 then 1 else 0)))).length steps (ids r) (off r)) >>=
      stridePart ⟨ctx, (List.finRange P).filter (fun q => decide
        ((if (ids q).length - off q = 0 then 1 else 0) = (if (ids r).length - off r = 0 then 1 else 0)))⟩ (ids r) (off r)) inc := by
  rw [strideStep] at h
  obtain ⟨M, hM⟩ : ∃ M, M = (List.finRange P).filter (fun r => (ids r).length - off r ≠ 0) := ⟨_, rfl⟩
  rw [← hM] at h
  obtain ⟨trial, ht, h⟩ := bind_eq_ok h
  have ht := fun r => allRanks_inv ht r
  have h := fun r => allRanks_inv h r
  have hmem : ∀ r, r ∈ M ↔ (ids r).length - off r ≠ 0 := fun r => by simp [hM]
  have hC : ∀ r, (ids r).length - off r ≠ 0 → (List.finRange P).filter (fun q => decide
      ((if (ids q).length - off q = 0 then 1 else 0) = (if (ids r).length - off r = 0 then 1 else 0))) = M := by
    intro r hr
    rw [hM]
    apply List.filter_congr
    intro q _
    rw [if_neg hr]
    by_cases hq : (ids q).length - off q = 0 <;> simp [hq]
  have hnone : ∀ r, trial r = none ↔ (ids r).length - off r = 0 := fun r => stridePid_none_iff (ht r)
  obtain ⟨minId, hmin⟩ : ∃ v, v = minOfPids ((List.finRange P).filterMap (fun r => (trial r).map Prod.snd)) := ⟨_, rfl⟩
  rw [← hmin] at h
  refine Runs.lift_bind (a := trial) (fun r => ?_) ?_
  · by_cases hr : (ids r).length - off r = 0
    · rw [(hnone r).2 hr]
      unfold stridePid
      rw [if_pos hr]
    · rw [hC r hr]
      exact ht r
  cases hMc : M with
  | nil =>
    have hall : ∀ r, trial r = none := by
      intro r
      rw [hnone]
      by_contra hr
      have := (hmem r).2 hr
      rw [hMc] at this
      cases this
    refine (Runs.ret inc).congr (fun r => ?_)
    have := h r
    rw [hall r] at this ⊢
    injection this with e
    rw [← e]
    rfl
  | cons m rest =>
    rw [hMc] at hC hmem
    obtain ⟨x, hx⟩ : ∃ x : Fin P → Int, ∀ r n pid, trial r = some (n, pid) → x r = pid :=
      ⟨fun r => ((trial r).map Prod.snd).getD 0, fun r n pid e => by simp [e]⟩
    have hf : (List.finRange P).filterMap (fun r => (trial r).map Prod.snd) = (m :: rest).map x := by
      rw [filterMap_filter_map _ _ (fun r => decide ((ids r).length - off r ≠ 0)) x, ← hMc, hM]
      · intro q _ hq
        have : trial q ≠ none := by rw [ne_eq, hnone]; simpa using hq
        cases e : trial q with
        | none => exact absurd e this
        | some t => rw [hx q t.1 t.2 e]; rfl
      · intro q _ hq
        have : trial q = none := by rw [hnone]; simpa using hq
        rw [this]; rfl
    rw [hf, List.map_cons, minOfPids] at hmin
    have sem := semAllreduce_members min m rest x
    rw [← hmin] at sem
    have key : Runs (fun r => if r ∈ m :: rest then subAllreduce ⟨ctx, m :: rest⟩ min (x r) >>= fun minId =>
        lift (strideAdvance minId (ids r) (off r) (trial r)) else Prog.ret 0) inc := by
      refine Runs.sub (C := ⟨ctx, m :: rest⟩) (κ := .allreduce Int min 1) (x := fun r => [x r]) (y := fun _ => [minId]) (by simp)
        (show (m :: rest).Nodup by rw [← hMc, hM]; exact (List.nodup_finRange P).filter _) sem ?_
      refine (Runs.ret inc).congr (fun r => ?_)
      by_cases hr : r ∈ m :: rest
      · rw [if_pos hr]
        show lift _ = _
        rw [h r]
        rfl
      · rw [if_neg hr]
        have : trial r = none := by
          rw [hnone]
          by_contra hc
          exact hr ((hmem r).2 hc)
        have h' := h r
        rw [this] at h'
        injection h' with e
        rw [← e]
    refine key.congr (fun r => ?_)
    by_cases hr : r ∈ m :: rest
    · rw [if_pos hr, hC r ((hmem r).1 hr)]
      cases e : trial r with
      | none => exact absurd ((hnone r).1 e) ((hmem r).1 hr)
      | some t =>
        rw [hx r t.1 t.2 e]
        rfl
    · rw [if_neg hr]
      have : trial r = none := by
        rw [hnone]
        by_contra hc
        exact hr ((hmem r).2 hc)
      rw [this]
      rfl

theorem foldl_add_sum (l : List Nat) : l.foldl (fun a b => a + b) 0 = l.sum := by
  rw [List.sum_eq_foldl]

theorem stride_runs {ids : Fin P → List Int} (fuel : Nat) : ∀ {steps : Nat} {off res : Fin P → Nat},
    parallelStride ids fuel steps off = .ok res → Runs (fun r => stride (ids r) fuel steps (off r)) res := by
  induction fuel with
  | zero => intro steps off res h; cases h
  | succ fuel ih =>
    intro steps off res h
    rw [parallelStride] at h
    split at h
    · rename_i hs
      cases h
      refine (Runs.ret off).congr (fun r => ?_)
      rw [stride, if_pos hs]
    · rename_i hs
      obtain ⟨inc, h1, h⟩ := bind_eq_ok h
      simp only at h
      split at h
      · rename_i hle
        simp only [stride, if_neg hs]
        refine Runs.split (fun ctx => ?_)
        have key : Runs (fun r => (lift (stridePid ((List.finRange P).filter (fun q => decide
            ((if (ids q).length - off q = 0 then 1 else 0) = (if (ids r).length - off r = 0 then 1 else 0)))).length steps (ids r) (off r)) >>=
            stridePart ⟨ctx, (List.finRange P).filter (fun q => decide
            ((if (ids q).length - off q = 0 then 1 else 0) = (if (ids r).length - off r = 0 then 1 else 0)))⟩ (ids r) (off r)) >>= fun n =>
              allreduce1 (fun a b => a + b) n >>= fun total =>
              if total ≤ steps then stride (ids r) fuel (steps - total) (off r + n) else .fail) res := by
          refine Runs.bind (stridePart_runs h1) ?_
          refine Runs.bind (runs_allreduce1 0 (fun a => Nat.zero_add a)) ?_
          simp only [foldl_add_sum, if_pos hle]
          exact ih h
        refine key.congr (fun r => ?_)
        rw [prog_bind_assoc]
      · cases h

theorem strides_runs {ids : Fin P → List Int} {nremainder : Nat} (left : Nat) : ∀ {i nnew : Nat} {off last : Fin P → Nat} {offs : Fin P → List Nat},
    strideRanks ids nremainder left i nnew off = .ok (offs, last) →
    Runs (fun r => strides (ids r) nremainder left i nnew (off r)) (fun r => (offs r, last r)) := by
  induction left with
  | zero =>
    intro i nnew off last offs h
    rw [strideRanks] at h
    cases h
    exact (Runs.ret _)
  | succ left ih =>
    intro i nnew off last offs h
    rw [strideRanks] at h
    obtain ⟨off', h1, h⟩ := bind_eq_ok h
    obtain ⟨⟨rest, last'⟩, h2, h⟩ := bind_eq_ok h
    cases h
    simp only [strides]
    exact Runs.bind (stride_runs _ h1) (Runs.bind (ih h2) (Runs.ret _))

theorem partition_runs {n : Nat} {ids : Fin P → List Int} {offs : Fin P → List Nat} (h : partitionParticles n ids = .ok offs) :
    Runs (fun r => partition n r (ids r)) offs := by
  unfold partitionParticles at h
  split at h
  · cases h
  unfold partition
  refine Runs.bind (contiguousId_runs n ids) ?_
  simp only at h
  split at h
  · rename_i hc
    refine (Runs.lift (fun r => allRanks_inv h r)).congr (fun r => ?_)
    rw [if_pos (hc r)]
  · split at h
    · rename_i hc
      obtain ⟨⟨offs', last⟩, h1, h⟩ := bind_eq_ok h
      simp only at h
      obtain ⟨u, h2, h⟩ := bind_eq_ok h
      cases h
      refine Runs.congr ?_ (fun r => by rw [if_neg (by simp [hc r])])
      exact Runs.bind (strides_runs P h1) (Runs.lift_bind (fun r => allRanks_inv h2 r) (Runs.ret _))
    · cases h

theorem sendParts_runs {parts received : Fin P → List (Particle D)} {offs sizes : Fin P → List Nat}
    (h1 : allRanks P (fun r => sendSizes (parts r).length (offs r)) = .ok sizes)
    (h2 : allRanks P (receiveBlocks parts offs sizes) = .ok received) :
    Runs (fun r => sendParts (parts r) (offs r)) received := by
  have h1 := fun r => allRanks_inv h1 r
  have h2 := fun r => allRanks_inv h2 r
  have h3 : ∀ (r s : Fin P), ∃ off size b, Outcome.get (offs s) r.val = .ok off ∧ Outcome.get (sizes s) r.val = .ok size ∧
      slice (parts s) off size = .ok b := by
    intro r s
    have := h2 r
    unfold receiveBlocks at this
    obtain ⟨blocks, hb, _⟩ := bind_eq_ok this
    have hb := allRanks_inv hb s
    obtain ⟨off, a1, hb⟩ := bind_eq_ok hb
    obtain ⟨size, a2, hb⟩ := bind_eq_ok hb
    exact ⟨off, size, _, a1, a2, hb⟩
  choose off size blocks a1 a2 a3 using h3
  unfold sendParts
  refine Runs.lift_bind h1 ?_
  refine Runs.lift_bind (a := fun s r => size r s) (fun s => allRanks_ok _ _ (fun r => a2 r s)) ?_
  refine Runs.bind runs_alltoall ?_
  refine Runs.lift_bind (a := fun s r => blocks r s) (fun s => allRanks_ok _ _ (fun r => ?_)) ?_
  · rw [a1, Outcome.bind_ok, a2, Outcome.bind_ok, a3]
  refine Runs.bind (runs_alltoallv (fun r s => (slice_length (a3 r s)).symm)) ?_
  refine (Runs.ret received).congr (fun r => ?_)
  have := h2 r
  unfold receiveBlocks at this
  rw [allRanks_ok _ (blocks r) (fun s => by rw [a1, Outcome.bind_ok, a2, Outcome.bind_ok, a3])] at this
  injection this with e
  rw [← e]

theorem exchangeParts_runs {sort : List (Particle D) → List (Particle D)} {parts new : Fin P → List (Particle D)} {ranges : List Int}
    (h : exchangeParticles sort parts = .ok (new, ranges)) :
    Runs (fun r => exchangeParts sort r (parts r)) (fun r => (new r, ranges)) := by
  rw [exchangeParticles] at h
  obtain ⟨offs, h1, h⟩ := bind_eq_ok h
  obtain ⟨sizes, h2, h⟩ := bind_eq_ok h
  obtain ⟨received, h3, h⟩ := bind_eq_ok h
  obtain ⟨mm, h4, h⟩ := bind_eq_ok h
  obtain ⟨rg, h5, h⟩ := bind_eq_ok h
  cases h
  unfold exchangeParts
  refine Runs.bind (runs_allreduce1 0 (fun a => Nat.zero_add a)) ?_
  simp only [foldl_add_sum]
  refine Runs.bind (partition_runs h1) ?_
  refine Runs.bind (sendParts_runs h2 h3) ?_
  refine Runs.lift_bind (fun r => allRanks_inv h4 r) ?_
  refine Runs.bind runs_allgather ?_
  cases P with
  | zero => exact Runs.none rfl _ _
  | succ n =>
    refine Runs.bind (runs_bcast1 (root := ⟨n, Nat.lt_succ_self n⟩)) ?_
    refine (Runs.ret _).congr (fun r => ?_)
    unfold idRanges at h5
    have : (List.ofFn mm).getLast? = some (mm ⟨n, Nat.lt_succ_self n⟩) := by
      rw [List.getLast?_eq_getElem?, List.getElem?_ofFn]
      simp
    rw [this] at h5
    injection h5 with h5
    rw [← h5]

end HBT.Spmd
