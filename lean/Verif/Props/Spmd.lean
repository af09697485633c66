import Verif.Lemmas.SpmdMain
import Verif.Lemmas.SpmdWeak
import Verif.Props.Main
import Verif.Props.MainExample
import Verif.Props.Exchange
import Verif.Props.Partition
import Verif.Props.Hosts
set_option linter.unusedSectionVars false
/-!
# C60: the processes of a run never wait for each other in vain

`Spec/Spmd.lean` describes programs that pass messages and their executions; `Completes p res` says that in every execution of the programs `p` of the processes,
however they are scheduled and whatever messages the library buffers, all of them come to their end with the results `res`, and no message is left.
-/
namespace HBT.Props
open HBT HBT.Model HBT.Spec HBT.Spmd HBT.MainLoop
variable {K D E S R α : Type}

/-! ## The results do not depend on the schedule -/

theorem completes_done {P : Nat} {p : Fin P → Prog P α} {res : Fin P → α} (h : Completes p res) (bf : Msg → Prop) (ctx : Nat) :
    ∃ s, Steps bf (start ctx p) s ∧ Done res s := by
  obtain ⟨hacc, hdone⟩ := h bf ctx
  have : ∀ s : State P α, Acc (fun b a => Step bf a b) s → ∃ t, Steps bf s t ∧ ¬ ∃ t', Step bf t t' := by
    intro s hs
    induction hs with
    | intro s _ ih =>
      by_cases he : ∃ t, Step bf s t
      · obtain ⟨t, ht⟩ := he
        obtain ⟨u, h1, h2⟩ := ih t ht
        exact ⟨u, Relation.ReflTransGen.head ht h1, h2⟩
      · exact ⟨s, .refl, he⟩
  obtain ⟨t, h1, h2⟩ := this _ hacc
  exact ⟨t, h1, hdone t h1 h2⟩

/-- C60. Programs that complete have one result. -/
theorem C60_one_result {P : Nat} {p : Fin P → Prog P α} {res res' : Fin P → α} (h : Completes p res) (h' : Completes p res') : res = res' := by
  obtain ⟨s, h1, h2⟩ := completes_done h (fun _ => True) 0
  have h3 := (h' (fun _ => True) 0).2 s h1 h2.no_step
  funext r
  have := (h2.1 r).symm.trans (h3.1 r)
  injection this

/-- C60. Programs that complete also do so, with the same results, if collective calls do not synchronise the processes: every call is carried out by messages
(`Spec/SpmdWeak.lean`), each member goes on as soon as it has what it gets from the others, and may or may not wait for further ones. -/
theorem C60_weak {P : Nat} {p : Fin P → Prog P α} {res : Fin P → α} (h : Completes p res) (w : Waits P) :
    Completes (fun r => byMessages w r (p r)) res := by
  refine completes_of_one (fun bf ctx => ?_)
  obtain ⟨s, h1, h2⟩ := completes_done h bf ctx
  refine ⟨expandState w s, ?_, fun r => ?_, fun a b t => ?_⟩
  · have := expand_steps (w := w) h1
    have e : expandState w (start ctx p) = start ctx (fun r => byMessages w r (p r)) := by
      refine State.ext' rfl ?_ rfl
      funext a b t
      show (if t % 2 = 0 then [] else []) = []
      split <;> rfl
    rwa [e] at this
  · show byMessages w r (s.progs r) = _
    rw [h2.1]
    rfl
  · show (if t % 2 = 0 then s.chan a b (t / 2) else []) = []
    rw [h2.2]
    split <;> rfl

/-- The root of a broadcast can be done before the other process has begun. -/
example : ∃ s, Steps (fun _ => True) (start 0 (fun r : Fin 2 => byMessages (fun _ _ _ _ => false) r (bcast 0 1 [r.val]))) s ∧
    s.progs 0 = .ret [0] ∧ s.progs 1 = byMessages (fun _ _ _ _ => false) 1 (bcast 0 1 [1]) := by
  have hfr : List.finRange 2 = [0, 1] := by decide
  have e := byMessages.eq_3 (P := 2) (α := List Nat) (fun _ _ _ _ => false) 0 ⟨0, [0, 1]⟩ (.bcast Nat 0 1) [0] .ret
  rw [if_pos (by simp), sendThen_eq] at e
  have e' := (show byMessages (fun _ _ _ _ => false) (0 : Fin 2) (bcast 0 1 [0]) =
      byMessages (fun _ _ _ _ => false) (0 : Fin 2) (.coll ⟨0, [0, 1]⟩ (.bcast Nat 0 1) [0] .ret) by rw [← hfr]; rfl).trans e
  have s1 := sendAll_steps (bf := fun _ => True) _ (start 0 (fun r : Fin 2 => byMessages (fun _ _ _ _ => false) r (bcast 0 1 [r.val]))) 0 _ e'
  refine ⟨_, s1.trans (gather_steps (τ := List Nat) (z := fun _ => [0]) (r := 0) _ _ _ rfl ?_ ?_), ?_, ?_⟩
  · decide
  · intro q hq
    have : q = (0, 0) := by
      have h2 : (List.filter (fun q => decide (0 < (Kind.bcast (P := 2) Nat 0 1).takes (List.idxOf (0 : Fin 2) [0, 1]) [0] q.2) || false) [(0 : Fin 2), 1].zipIdx) = [(0, 0)] := by
        decide
      rw [h2] at hq
      simpa using hq
    subst this
    rfl
  · rfl
  · rfl

/-! What completes, and what does not: two processes in a barrier; one process in a barrier and the other in a broadcast; a message that nobody
receives; a process that waits for its message to itself to be sent before it receives it (it depends on the library whether this ends). -/

example : Completes (fun _ : Fin 2 => barrier) (fun _ => ()) := runs_barrier.completes

example (res : Fin 2 → List Nat) :
    ¬ Completes (fun r : Fin 2 => if r = 0 then (barrier >>= fun _ => .ret [7] : Prog 2 (List Nat)) else bcast 0 1 [7]) res := by
  intro h
  have hno : ¬ ∃ s', Step (fun _ => True) (start 0 (fun r : Fin 2 => if r = 0 then (barrier >>= fun _ => .ret [7] : Prog 2 (List Nat)) else bcast 0 1 [7])) s' := by
    rintro ⟨s', hs⟩
    generalize hst : start 0 (fun r : Fin 2 => if r = 0 then (barrier >>= fun _ => .ret [7] : Prog 2 (List Nat)) else bcast 0 1 [7]) = st at hs
    have h0 : st.progs 0 = .coll (.world 2) .barrier () (fun _ => .ret [7]) := by rw [← hst]; rfl
    have h1 : st.progs 1 = .coll (.world 2) (.bcast Nat 0 1) [7] .ret := by rw [← hst]; rfl
    have hall : ∀ r : Fin 2, r = 0 ∨ r = 1 := by decide
    cases hs with
    | coll C κ x k y hne hnd hs hy hs' hrest hchan hctx =>
      obtain ⟨r, hr⟩ := List.exists_mem_of_ne_nil _ hne
      have hC : C = .world 2 := by
        have := hs r hr
        rcases hall r with rfl | rfl
        · rw [h0] at this; injection this with e; exact e.symm
        · rw [h1] at this; injection this with e; exact e.symm
      subst hC
      have e0 := hs 0 (by simp [Comm.world])
      have e1 := hs 1 (by simp [Comm.world])
      rw [h0] at e0
      rw [h1] at e1
      injection e0 with _ e0
      injection e1 with _ e1
      rw [← e0] at e1
      cases e1
    | split color k hne hs hs' hchan hctx => have := hs 0; rw [h0] at this; cases this
    | isend r dst tag m k hs hs' hchan hctx =>
      rcases hall r with rfl | rfl
      · rw [h0] at hs; cases hs
      · rw [h1] at hs; cases hs
    | recv r src tag τ k m rest hs hm hs' hchan hctx =>
      rcases hall r with rfl | rfl
      · rw [h0] at hs; cases hs
      · rw [h1] at hs; cases hs
    | waitall r k hs hsent hs' hchan hctx =>
      rcases hall r with rfl | rfl
      · rw [h0] at hs; cases hs
      · rw [h1] at hs; cases hs
  have := ((h (fun _ => True) 0).2 _ .refl hno).1 0
  cases this

example (res : Fin 1 → Unit) : ¬ Completes (fun _ : Fin 1 => (.isend 0 0 ⟨Nat, [7]⟩ (.ret ()) : Prog 1 Unit)) res := by
  intro h
  have h1 : Steps (fun _ => True) (start 0 (fun _ : Fin 1 => (.isend 0 0 ⟨Nat, [7]⟩ (.ret ()) : Prog 1 Unit)))
      ⟨fun _ => .ret (), fun _ _ t => if t = 0 then [⟨Nat, [7]⟩] else [], 0⟩ :=
    .single (.isend 0 0 0 ⟨Nat, [7]⟩ (.ret ()) rfl (by funext r; rw [Subsingleton.elim r 0]; simp) (by
      intro a b t
      rw [Subsingleton.elim a 0, Subsingleton.elim b 0]
      simp [start]) rfl)
  have h2 := (h (fun _ => True) 0).2 _ h1 (by rintro ⟨s', hs⟩; obtain ⟨r, hr⟩ := hs.moves; exact hr () rfl)
  have := h2.2 0 0 0
  cases this

example (res : Fin 1 → List Nat) :
    ¬ Completes (fun _ : Fin 1 => (.isend 0 0 ⟨Nat, [7]⟩ (.waitall (.recv 0 0 Nat (fun m => .ret m))) : Prog 1 (List Nat))) res := by
  intro h
  have h1 : Steps (fun _ => False) (start 0 (fun _ : Fin 1 => (.isend 0 0 ⟨Nat, [7]⟩ (.waitall (.recv 0 0 Nat (fun m => .ret m))) : Prog 1 (List Nat))))
      ⟨fun _ => .waitall (.recv 0 0 Nat (fun m => .ret m)), fun _ _ t => if t = 0 then [⟨Nat, [7]⟩] else [], 0⟩ :=
    .single (.isend 0 0 0 ⟨Nat, [7]⟩ (.waitall (.recv 0 0 Nat (fun m => .ret m))) rfl (by funext r; rw [Subsingleton.elim r 0]; simp) (by
      intro a b t
      rw [Subsingleton.elim a 0, Subsingleton.elim b 0]
      simp [start]) rfl)
  have h2 := (h (fun _ => False) 0).2 _ h1 (by
    rintro ⟨s', hs⟩
    cases hs with
    | coll C κ x k y hne hnd hs hy hs' hrest hchan hctx =>
      obtain ⟨r, hr⟩ := List.exists_mem_of_ne_nil _ hne
      have := hs r hr
      cases this
    | split color k hne hs hs' hchan hctx => have := hs 0; cases this
    | isend r dst tag m k hs hs' hchan hctx => cases hs
    | recv r src tag τ k m rest hs hm hs' hchan hctx => cases hs
    | waitall r k hs hsent hs' hchan hctx =>
      have := hsent 0 0 ⟨Nat, [7]⟩
      rw [Subsingleton.elim r 0] at this
      exact this (by simp))
  have := h2.1 0
  cases this

/-! ## The transport routines -/

/-- C60 (and C11). The exchange of sequences between all pairs of processes: every process gets what each process has for it. -/
theorem C60_all_to_all {P : Nat} (fill : α) (chunksize : Nat) (hc : 0 < chunksize) (hP : P * (chunksize + 1) < 2 ^ 31)
    (its : Fin P → Fin P → List α) (counts : Fin P → Fin P → Nat) (hlen : ∀ s r, counts s r ≤ (its s r).length) :
    Completes (fun r => allToAll fill chunksize (its r) (counts r)) (fun r s => (its s r).take (counts s r)) :=
  (allToAll_runs (C11_alltoall fill chunksize hc hP its counts hlen)).completes

/-- C60 (and C12). The broadcast of a sequence: every process gets the sequence of the root and its length. -/
theorem C60_bcast {P : Nat} (fill : α) (chunksize : Nat) (hc : 0 < chunksize) (root : Fin P) (counts : Fin P → Nat) (its : Fin P → List α)
    (hlen : counts root ≤ (its root).length) :
    Completes (fun r => bcastList fill chunksize root r (counts r) (its r)) (fun _ => (counts root, (its root).take (counts root))) :=
  (bcastList_runs (C12_bcast chunksize hc root counts (its root) hlen)).completes

/-- C60. The broadcast of a container of parameters. -/
theorem C60_sync {P : Nat} (fill : α) (root : Fin P) (x : Fin P → List α) (hsmall : (x root).length < 2147483647) :
    Completes (fun r => syncList fill root r (x r)) (fun _ => x root) :=
  (syncList_runs hsmall).completes

/-- C60 (and C13). If the container of the root has 2^31-1 elements, the root stops before it sends anything. -/
theorem C60_sync_oversize {P : Nat} (fill : α) (root : Fin P) (x : List α) (h : x.length = 2147483647) :
    syncList fill root root x = .fail := by
  have e : sizeToInt x.length = 2147483647 := by
    unfold sizeToInt
    rw [h]
    decide
  simp only [syncList, e, syncCheck]
  rfl

example : Completes (fun r : Fin 3 => bcastList 0 2 1 r r.val (if r = 1 then [4, 5, 6] else [9])) (fun _ => (1, [4])) :=
  C60_bcast 0 2 (by decide) 1 (fun r : Fin 3 => r.val) (fun r => if r = 1 then [4, 5, 6] else [9]) (by decide)

/-! ## The stages of an iteration -/

/-- C60 (and C15). The redistribution of the particles by id completes: there are no particles lost or doubled, and all processes learn the same ranges. -/
theorem C60_redistribution {P : Nat} (hP : 0 < P) {sort : List (Particle D) → List (Particle D)} (hs : SortBySpec Particle.id sort)
    (parts : Fin P → List (Particle D)) (hd : ((allParticles parts).map Particle.id).Nodup) (hn : ∀ q ∈ allParticles parts, 0 ≤ q.id)
    (hN : P ≤ (allParticles parts).length) :
    ∃ new ranges, Completes (fun r => exchangeParts sort r (parts r)) (fun r => (new r, ranges)) ∧
      (allParticles new).Perm (allParticles parts) ∧ PartitionedById ranges new := by
  obtain ⟨new, ranges, e, h1, _, h2, _⟩ := C15_partition hP hs parts hd hn hN
  exact ⟨new, ranges, (exchangeParts_runs e).completes, h1, h2⟩

/-- C60 (and C17). The particle query completes: every process gets the current data of the particles it asked for. -/
theorem C60_query {P : Nat} (needHash : Bool) (chunksize : Nat) (hc : 0 < chunksize) (hP : P * (chunksize + 1) < 2 ^ 31) (fill : Particle D)
    {sort : List (Particle D × Nat) → List (Particle D × Nat)} (hsort : SortBySpec (fun q => q.1.id) sort) (bounds : List Int)
    (snap : Fin P → SnapRank D) (hpart : PartitionedById bounds (fun r => (snap r).particles)) (htab : ∀ r, TablesFilled (snap r))
    (halos : Fin P → List (List (Particle D))) (hlo : ∀ s, ∀ h ∈ halos s, ∀ p ∈ h, ∀ b, bounds[0]? = some b → b ≤ p.id)
    (hhi : ∀ s, ∀ h ∈ halos s, ∀ p ∈ h, ∀ b, bounds[P]? = some b → p.id < b) :
    Completes (fun r => query needHash chunksize fill sort bounds (snap r) (halos r))
      (fun s => (halos s).map (List.map (currentOf (allParticles (fun r => (snap r).particles))))) :=
  (query_runs (C17_query needHash chunksize hc hP fill hsort bounds snap hpart htab halos hlo hhi)).completes

/-! ## The main loop -/

variable [LinearOrder K] [MassSum K] [Mul K] [LinearOrder R] [LinearOrder E] [Zero E]

theorem Consecutive.ops {b : Build K D S} {sim : Int → List Int} {P : Nat} {a : Int} {xs : List (SnapInput K D E S R P × List (WriteOp P))}
    (h : Consecutive b sim a xs) : (∀ x ∈ xs, ∀ r, .sub r ∈ x.2 ∧ .src r ∈ x.2) ∧ (∀ x ∈ xs, a ≤ x.1.snap) ∧ (xs.map (fun x => x.1.snap)).Nodup := by
  induction h with
  | nil a => exact ⟨by simp, by simp, by simp⟩
  | cons snap ok ops_ rest ih =>
    refine ⟨fun x hx => ?_, fun x hx => ?_, ?_⟩
    · rcases List.mem_cons.1 hx with rfl | hx
      · exact ops_
      · exact ih.1 x hx
    · rcases List.mem_cons.1 hx with rfl | hx
      · exact le_of_eq snap.symm
      · have := ih.2.1 x hx; omega
    · rw [List.map_cons, List.nodup_cons]
      refine ⟨fun hm => ?_, ih.2.2⟩
      obtain ⟨x, hx, e⟩ := List.mem_map.1 hm
      have e' := e.trans snap
      have := ih.2.1 x hx
      omega

/-- C60. A session on any number of processes, from any state of the directories that earlier sessions can have left, over any number of further
snapshots of the simulation: however the processes are scheduled, whatever messages the library buffers, and whatever number of processes may read or
write at a time, no process waits for ever, no calls mismatch, none crashes and no message is left over. The subhaloes at the end and the files each process
has written are those of the model for all processes, and so do not depend on the schedule. (`fuel` bounds the number of chunks a process
can receive from another; every sufficiently large bound will do.) -/
theorem C60_session {b : Build K D S} (hb : BuildOk b) {sim : Int → List Int} (hsim : Persistent b sim) {disks : Int → Disk K D}
    {hist : List (Σ P, SnapInput K D E S R P)} (h : Reach b sim disks hist) {P : Nat} (hP : 0 < P) {n : Nat} (hn : n ≤ hist.length)
    {xs : List (SnapInput K D E S R P × List (WriteOp P))} (hx : Consecutive b sim (b.minIndex + n) xs) :
    ∃ st st' disks', launch P b (b.minIndex + n) disks = .ok st ∧ session b xs st disks = .ok (st', disks') ∧
    ∃ N, ∃ files : Fin P → Written K D,
      (∀ r, (files r).map Prod.fst = xs.map (fun x => x.1.snap) ∧
        ∀ e ∈ files r, (disks' e.1).sub r.val = some e.2.1 ∧ (disks' e.1).src r.val = some e.2.2) ∧
      ∀ fuel, N ≤ fuel → ∀ (maxIo : Int) (junk : Fin P → Nat),
        Completes (fun r => mainLoop fuel maxIo (junk r) b (b.minIndex + n) disks r (xs.map (fun x => own x.1 r))) (fun r => (st' r, files r)) := by
  obtain ⟨st, st', disks', e1, e2⟩ := C58_never_fails hb hsim h hP hn hx
  obtain ⟨ho, _, hd⟩ := hx.ops
  obtain ⟨N, log, hlog, hN⟩ := mainLoop_runs hb.nestChunk ho hd e1 e2
  exact ⟨st, st', disks', e1, e2, N, log, hlog, fun fuel hf maxIo junk => (hN fuel hf maxIo junk).completes⟩

/-- C60. The same if collective calls do not synchronise the processes. -/
theorem C60_session_weak {b : Build K D S} (hb : BuildOk b) {sim : Int → List Int} (hsim : Persistent b sim) {disks : Int → Disk K D}
    {hist : List (Σ P, SnapInput K D E S R P)} (h : Reach b sim disks hist) {P : Nat} (hP : 0 < P) {n : Nat} (hn : n ≤ hist.length)
    {xs : List (SnapInput K D E S R P × List (WriteOp P))} (hx : Consecutive b sim (b.minIndex + n) xs) :
    ∃ st st' disks', launch P b (b.minIndex + n) disks = .ok st ∧ session b xs st disks = .ok (st', disks') ∧
    ∃ N, ∃ files : Fin P → Written K D,
      (∀ r, (files r).map Prod.fst = xs.map (fun x => x.1.snap) ∧
        ∀ e ∈ files r, (disks' e.1).sub r.val = some e.2.1 ∧ (disks' e.1).src r.val = some e.2.2) ∧
      ∀ fuel, N ≤ fuel → ∀ (maxIo : Int) (junk : Fin P → Nat) (w : Waits P),
        Completes (fun r => byMessages w r (mainLoop fuel maxIo (junk r) b (b.minIndex + n) disks r (xs.map (fun x => own x.1 r))))
          (fun r => (st' r, files r)) := by
  obtain ⟨st, st', disks', e1, e2, N, files, h1, h2⟩ := C60_session hb hsim h hP hn hx
  exact ⟨st, st', disks', e1, e2, N, files, h1, fun fuel hf maxIo junk w => C60_weak (h2 fuel hf maxIo junk) w⟩

/-- Two processes, two snapshots, one process reading or writing at a time. -/
example : ∃ (st' : Fin 2 → List (Sub ℚ Nat)) (files : Fin 2 → Written ℚ Nat) (N : Nat), (∀ r, (files r).map Prod.fst = [0, 1]) ∧
    ∀ fuel, N ≤ fuel → Completes (fun r => mainLoop fuel 1 5 (mBuild true false) 0 mNone r [own mW0 r, own mW1 r]) (fun r => (st' r, files r)) := by
  obtain ⟨st, st', disks', _, _, N, files, h1, h2⟩ :=
    C60_session (mBuild_ok true false) (mSim_ok _ _) (.start mNone) (show 0 < 2 by decide) (Nat.le_refl 0) (mXs_ok _ _)
  exact ⟨st', files, N, fun r => (h1 r).1, fun fuel hf => h2 fuel hf 1 (fun _ => 5)⟩

end HBT.Props
