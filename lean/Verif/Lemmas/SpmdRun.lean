import Verif.Lemmas.Spmd
import Verif.Model.Spmd
import Verif.Model.Mpi
set_option linter.unusedSectionVars false
/-!
# Executions of composed programs
-/
namespace HBT.Spmd
open HBT.Model
variable {P : Nat} {α β γ τ : Type} {bf : Msg → Prop}

@[simp] theorem ret_bind (a : α) (f : α → Prog P β) : (Prog.ret a >>= f) = f a := rfl
@[simp] theorem fail_bind (f : α → Prog P β) : ((Prog.fail : Prog P α) >>= f) = .fail := rfl
@[simp] theorem coll_bind (C : Comm P) (κ : Kind P) (x : κ.In) (k : κ.Out → Prog P α) (f : α → Prog P β) :
    (Prog.coll C κ x k >>= f) = .coll C κ x (fun y => k y >>= f) := rfl
@[simp] theorem split_bind (c : Nat) (k : Comm P → Prog P α) (f : α → Prog P β) :
    (Prog.split c k >>= f) = .split c (fun C => k C >>= f) := rfl
@[simp] theorem isend_bind (d : Fin P) (t : Nat) (m : Msg) (k : Prog P α) (f : α → Prog P β) :
    (Prog.isend d t m k >>= f) = .isend d t m (k >>= f) := rfl
@[simp] theorem recv_bind (s : Fin P) (t : Nat) (τ : Type) (k : List τ → Prog P α) (f : α → Prog P β) :
    (Prog.recv s t τ k >>= f) = .recv s t τ (fun m => k m >>= f) := rfl
@[simp] theorem waitall_bind (k : Prog P α) (f : α → Prog P β) : (Prog.waitall k >>= f) = .waitall (k >>= f) := rfl
@[simp] theorem pure_ret (a : α) : (pure a : Prog P α) = .ret a := rfl
@[simp] theorem lift_ok (a : α) : (lift (.ok a) : Prog P α) = .ret a := rfl

theorem prog_bind_assoc (p : Prog P α) (f : α → Prog P β) (g : β → Prog P γ) : (p >>= f) >>= g = p >>= fun a => f a >>= g := by
  induction p with
  | ret a => rfl
  | fail => rfl
  | coll C κ x k ih => simp [ih]
  | split c k ih => simp [ih]
  | isend d t m k ih => simp [ih]
  | recv s t τ k ih => simp [ih]
  | waitall k ih => simp [ih]

/-- The programs of all processes can be run to the given results, from any context number on. -/
def Runs (p : Fin P → Prog P α) (res : Fin P → α) : Prop :=
  ∀ bf ctx, ∃ ctx', Steps bf (start ctx p) (start ctx' (fun r => .ret (res r)))

theorem Runs.completes {p : Fin P → Prog P α} {res : Fin P → α} (h : Runs p res) : Completes p res :=
  completes_of_one (fun bf ctx => by
    obtain ⟨ctx', h⟩ := h bf ctx
    exact ⟨_, h, fun _ => rfl, fun _ _ _ => rfl⟩)

theorem Runs.ret (a : Fin P → α) : Runs (fun r => .ret (a r)) a := fun _ ctx => ⟨ctx, .refl⟩

theorem Runs.lift {f : Fin P → Outcome α} {a : Fin P → α} (h : ∀ r, f r = .ok (a r)) : Runs (fun r => lift (f r)) a := by
  simp only [h, lift_ok]
  exact Runs.ret a

/-- A step of the first parts of the programs. -/
theorem Step.bind {s t : State P α} (h : Step bf s t) (f : Fin P → α → Prog P β) :
    Step bf (⟨fun r => s.progs r >>= f r, s.chan, s.ctx⟩ : State P β) ⟨fun r => t.progs r >>= f r, t.chan, t.ctx⟩ := by
  cases h with
  | coll C κ x k y hne hnd hs hy hs' hrest hchan hctx =>
    exact .coll C κ x (fun r y => k r y >>= f r) y hne hnd (fun r hr => by show s.progs r >>= f r = _; rw [hs r hr]; rfl) hy
      (fun r hr => by show t.progs r >>= f r = _; rw [hs' r hr]) (fun r hr => by show t.progs r >>= f r = s.progs r >>= f r; rw [hrest r hr])
      hchan hctx
  | split color k hne hs hs' hchan hctx =>
    exact .split color (fun r C => k r C >>= f r) hne (fun r => by show s.progs r >>= f r = _; rw [hs r]; rfl)
      (fun r => by show t.progs r >>= f r = _; rw [hs' r]) hchan hctx
  | isend r dst tag m k hs hs' hchan hctx =>
    refine .isend r dst tag m (k >>= f r) (by show s.progs r >>= f r = _; rw [hs]; rfl) ?_ hchan hctx
    funext q
    show t.progs q >>= f q = _
    rw [hs']
    by_cases e : q = r
    · subst e; simp
    · rw [Function.update_of_ne e, Function.update_of_ne e]
  | recv r src tag τ k m rest hs hm hs' hchan hctx =>
    refine .recv r src tag τ (fun m => k m >>= f r) m rest (by show s.progs r >>= f r = _; rw [hs]; rfl) hm ?_ hchan hctx
    funext q
    show t.progs q >>= f q = _
    rw [hs']
    by_cases e : q = r
    · subst e; simp
    · rw [Function.update_of_ne e, Function.update_of_ne e]
  | waitall r k hs hempty hs' hchan hctx =>
    refine .waitall r (k >>= f r) (by show s.progs r >>= f r = _; rw [hs]; rfl) hempty ?_ hchan hctx
    funext q
    show t.progs q >>= f q = _
    rw [hs']
    by_cases e : q = r
    · subst e; simp
    · rw [Function.update_of_ne e, Function.update_of_ne e]

theorem Steps.bind {s t : State P α} (h : Steps bf s t) (f : Fin P → α → Prog P β) :
    Steps bf (⟨fun r => s.progs r >>= f r, s.chan, s.ctx⟩ : State P β) ⟨fun r => t.progs r >>= f r, t.chan, t.ctx⟩ := by
  induction h with
  | refl => exact .refl
  | tail _ h ih => exact ih.tail (h.bind f)

theorem Runs.bind {p : Fin P → Prog P α} {a : Fin P → α} {f : Fin P → α → Prog P β} {b : Fin P → β} (hp : Runs p a)
    (hf : Runs (fun r => f r (a r)) b) : Runs (fun r => p r >>= f r) b := by
  intro bf ctx
  obtain ⟨c1, h1⟩ := hp bf ctx
  obtain ⟨c2, h2⟩ := hf bf c1
  exact ⟨c2, (h1.bind f).trans h2⟩

/-- Local computations before the rest of the programs. -/
theorem Runs.lift_bind {o : Fin P → Outcome α} {a : Fin P → α} {f : Fin P → α → Prog P β} {b : Fin P → β}
    (h : ∀ r, o r = .ok (a r)) (hf : Runs (fun r => f r (a r)) b) : Runs (fun r => Spmd.lift (o r) >>= f r) b :=
  (Runs.lift h).bind hf

theorem Runs.congr {p q : Fin P → Prog P α} {a : Fin P → α} (h : Runs p a) (e : ∀ r, q r = p r) : Runs q a := by
  have : q = p := funext e
  rwa [this]

theorem start_none (h : P = 0) (ctx : Nat) (p q : Fin P → Prog P α) : start ctx p = start ctx q := by
  subst h
  congr
  funext r
  exact r.elim0

theorem Runs.none (h : P = 0) (p : Fin P → Prog P α) (res : Fin P → α) : Runs p res := fun _ ctx =>
  ⟨ctx, by rw [start_none h ctx p (fun r => .ret (res r))]; exact .refl⟩

theorem world_map (x : Fin P → τ) : (Comm.world P).members.map x = List.ofFn x := (List.ofFn_eq_map).symm

/-- A collective call of all processes. -/
theorem Runs.coll {κ : Kind P} {x : Fin P → κ.In} {y : Fin P → κ.Out} (h : κ.sem (List.ofFn x) = some (List.ofFn y)) :
    Runs (fun r => .coll (.world P) κ (x r) .ret) y := by
  by_cases hP : P = 0
  · exact Runs.none hP _ _
  intro bf ctx
  refine ⟨ctx, .single (.coll (.world P) κ x (fun _ => .ret) y ?_ (List.nodup_finRange P) (fun r _ => rfl) ?_ (fun r _ => rfl) (fun r hr => ?_) rfl rfl)⟩
  · intro e
    exact hP (by simpa [Comm.world] using congrArg List.length e)
  · rw [world_map, world_map]; exact h
  · exact absurd (List.mem_finRange r) hr

/-- A collective call of the members of a communicator, the others being somewhere else. -/
theorem Runs.sub {C : Comm P} {κ : Kind P} {x : Fin P → κ.In} {y : Fin P → κ.Out} {k : Fin P → κ.Out → Prog P α} {q : Fin P → Prog P α}
    {res : Fin P → α} (hne : C.members ≠ []) (hnd : C.members.Nodup) (h : κ.sem (C.members.map x) = some (C.members.map y))
    (hr : Runs (fun r => if r ∈ C.members then k r (y r) else q r) res) :
    Runs (fun r => if r ∈ C.members then .coll C κ (x r) (k r) else q r) res := by
  intro bf ctx
  obtain ⟨ctx', h'⟩ := hr bf ctx
  refine ⟨ctx', Relation.ReflTransGen.head
    (b := start ctx (fun r => if r ∈ C.members then k r (y r) else q r)) (.coll C κ x k y hne hnd (fun r hr => ?_) h (fun r hr => ?_) (fun r hr => ?_) rfl rfl) h'⟩
  · simp [start, hr]
  · simp [start, hr]
  · simp [start, hr]

/-- `MPI_Comm_split` by all processes. -/
theorem Runs.split {color : Fin P → Nat} {k : Fin P → Comm P → Prog P α} {res : Fin P → α}
    (h : ∀ ctx, Runs (fun r => k r ⟨ctx, (List.finRange P).filter (fun q => decide (color q = color r))⟩) res) :
    Runs (fun r => .split (color r) (k r)) res := by
  by_cases hP : P = 0
  · exact Runs.none hP _ _
  intro bf ctx
  obtain ⟨ctx', h'⟩ := h (ctx + 1) bf (ctx + 1)
  exact ⟨ctx', Relation.ReflTransGen.head
    (b := start (ctx + 1) (fun r => k r ⟨ctx + 1, (List.finRange P).filter (fun q => decide (color q = color r))⟩)) (.split color k (Nat.pos_of_ne_zero hP) (fun r => rfl) (fun r => rfl) rfl rfl) h'⟩

/-! ## The calls -/

theorem runs_barrier : Runs (fun _ : Fin P => barrier) (fun _ => ()) := by
  refine Runs.coll (κ := Kind.barrier) (x := fun _ => ()) ?_
  show some ((List.ofFn (fun _ : Fin P => ())).map (fun _ => ())) = some (List.ofFn (fun _ : Fin P => ()))
  congr 1
  apply List.ext_getElem <;> simp

theorem ofFn_const (a : α) (x : Fin P → τ) : (List.ofFn x).map (fun _ => a) = List.ofFn (fun _ : Fin P => a) := by
  apply List.ext_getElem <;> simp

theorem runs_bcast {root : Fin P} {count : Nat} {buf : Fin P → List τ} (h : ∀ r, (buf r).length = count) :
    Runs (fun r => bcast root count (buf r)) (fun _ => buf root) := by
  refine Runs.coll (κ := .bcast τ root.val count) (x := buf) ?_
  show semBcast root.val count (List.ofFn buf) = some (List.ofFn (fun _ : Fin P => buf root))
  have : (List.ofFn buf)[root.val]? = some (buf root) := by simp
  have hall : ∀ b ∈ List.ofFn buf, b.length = count := by
    intro b hb
    obtain ⟨r, rfl⟩ := (List.mem_ofFn' _ _).1 hb
    exact h r
  unfold semBcast
  rw [this]
  simp only
  rw [if_pos hall, ofFn_const]

theorem runs_bcast1 {root : Fin P} {x : Fin P → τ} : Runs (fun r => bcast1 root (x r)) (fun _ => x root) :=
  (runs_bcast (buf := fun r => [x r]) (fun _ => rfl)).bind (Runs.ret (fun _ => x root))

theorem foldl_single (op : τ → τ → τ) (a : τ) (l : List τ) :
    (l.map (fun b => [b])).foldl (List.zipWith op) [a] = [l.foldl op a] := by
  induction l generalizing a with
  | nil => rfl
  | cons b l ih => simp [ih]

theorem ofFn_eq_cons {n : Nat} (hP : P = n + 1) (x : Fin P → τ) : ∃ a l, List.ofFn x = a :: l := by
  subst hP
  exact ⟨_, _, List.ofFn_succ⟩

theorem runs_allreduce {op : τ → τ → τ} {count : Nat} {buf : Fin P → List τ} (h : ∀ r, (buf r).length = count)
    {a : List τ} {l : List (List τ)} (e : List.ofFn buf = a :: l) :
    Runs (fun r => allreduce op count (buf r)) (fun _ => l.foldl (List.zipWith op) a) := by
  refine Runs.coll (κ := .allreduce τ op count) (x := buf) ?_
  show semAllreduce op count (List.ofFn buf) = some (List.ofFn (fun _ : Fin P => l.foldl (List.zipWith op) a))
  have hall : ∀ b ∈ List.ofFn buf, b.length = count := by
    intro b hb
    obtain ⟨r, rfl⟩ := (List.mem_ofFn' _ _).1 hb
    exact h r
  have e2 := ofFn_const (l.foldl (List.zipWith op) a) buf
  unfold semAllreduce
  rw [e] at hall e2 ⊢
  simp only
  rw [if_pos hall, e2]

/-- The reduction of one value per process, for an operation with a unit. -/
theorem runs_allreduce1 {op : τ → τ → τ} {x : Fin P → τ} (e : τ) (he : ∀ a, op e a = a) :
    Runs (fun r => allreduce1 op (x r)) (fun _ => (List.ofFn x).foldl op e) := by
  cases P with
  | zero => exact Runs.none rfl _ _
  | succ n =>
    obtain ⟨a, l, hx⟩ := ofFn_eq_cons rfl x
    have hb : List.ofFn (fun r => [x r]) = [a] :: l.map (fun b => [b]) := by
      have : List.ofFn (fun r => [x r]) = (List.ofFn x).map (fun b => [b]) := by simp [List.map_ofFn]; rfl
      rw [this, hx]; rfl
    have h1 := runs_allreduce (op := op) (count := 1) (fun r => by rfl) hb
    rw [foldl_single] at h1
    refine h1.bind ?_
    rw [hx, List.foldl_cons, he]
    exact Runs.ret _

theorem getElem_ofFn_fin (x : Fin P → τ) (r : Fin P) (h : r.val < (List.ofFn x).length) : (List.ofFn x)[r.val]'h = x r := by
  rw [List.getElem_ofFn]

theorem runs_alltoall {x : Fin P → Fin P → τ} : Runs (fun r => alltoall (x r)) (fun r s => x s r) := by
  refine Runs.coll (κ := .alltoall τ) (x := x) ?_
  show semAlltoall (List.ofFn x) = some (List.ofFn (fun r s => x s r))
  unfold semAlltoall
  rw [dif_pos (by simp)]
  congr 2
  funext r s
  exact congrFun (getElem_ofFn_fin x s _) r

theorem runs_alltoallv {blocks : Fin P → Fin P → List τ} {counts : Fin P → Fin P → Nat} (h : ∀ r s, counts r s = (blocks s r).length) :
    Runs (fun r => alltoallv (blocks r) (counts r)) (fun r s => blocks s r) := by
  refine Runs.coll (κ := .alltoallv τ) (x := fun r => (blocks r, counts r)) ?_
  show semAlltoallv (List.ofFn (fun r => (blocks r, counts r))) = some (List.ofFn (fun r s => blocks s r))
  unfold semAlltoallv
  rw [dif_pos (by simp)]
  rw [if_pos (fun r s => by simp [h])]
  congr 2
  funext r s
  simp

theorem runs_scatterv {root : Fin P} {blocks : Fin P → Fin P → List τ} {count : Fin P → Nat}
    (h : ∀ r, count r = (blocks root r).length) : Runs (fun r => scatterv root (blocks r) (count r)) (fun r => blocks root r) := by
  refine Runs.coll (κ := .scatterv τ root) (x := fun r => (blocks r, count r)) ?_
  show semScatterv root (List.ofFn (fun r => (blocks r, count r))) = some (List.ofFn (fun r => blocks root r))
  unfold semScatterv
  rw [dif_pos (by simp)]
  rw [if_pos (fun r => by simp [h])]
  congr 2
  funext r
  simp

theorem runs_allgather {x : Fin P → τ} : Runs (fun r => allgather (x r)) (fun _ => List.ofFn x) := by
  refine Runs.coll (κ := .allgather τ) (x := x) ?_
  show some ((List.ofFn x).map (fun _ => List.ofFn x)) = some (List.ofFn (fun _ : Fin P => List.ofFn x))
  rw [ofFn_const]

theorem runs_reduce1 {op : τ → τ → τ} {root : Fin P} {x : Fin P → τ} (e : τ) (he : ∀ a, op e a = a) :
    Runs (fun r => reduce1 op root (x r)) (fun r => if r = root then some ((List.ofFn x).foldl op e) else none) := by
  cases P with
  | zero => exact Runs.none rfl _ _
  | succ n =>
    refine Runs.coll (κ := .reduce τ op root.val) (x := x) ?_
    show semReduce op root.val (List.ofFn x) = some (List.ofFn (fun r => if r = root then some ((List.ofFn x).foldl op e) else none))
    obtain ⟨a, l, hx⟩ := ofFn_eq_cons rfl x
    have hlen : (a :: l).length = n + 1 := by rw [← hx]; simp
    unfold semReduce
    rw [hx]
    simp only
    rw [if_pos (by rw [hlen]; exact root.isLt), List.foldl_cons, he]
    congr 1
    apply List.ext_getElem
    · rw [List.length_map, List.length_range, hlen, List.length_ofFn]
    · intro i h1 h2
      rw [List.getElem_ofFn]
      simp [Fin.ext_iff]

theorem scanl_getElem (op : τ → τ → τ) (a : τ) (l : List τ) (i : Nat) (h : i < (l.scanl op a).length) :
    (l.scanl op a)[i] = (l.take i).foldl op a := by
  induction l generalizing a i with
  | nil => simp at h; subst h; simp
  | cons b l ih =>
    cases i with
    | zero => simp
    | succ i => simp [List.scanl_cons, ih]

theorem runs_scan1 {op : τ → τ → τ} {x : Fin P → τ} (e : τ) (he : ∀ a, op e a = a) :
    Runs (fun r => scan1 op (x r)) (fun r => ((List.ofFn x).take (r.val + 1)).foldl op e) := by
  cases P with
  | zero => exact Runs.none rfl _ _
  | succ n =>
    refine Runs.coll (κ := .scan τ op) (x := x) ?_
    show semScan op (List.ofFn x) = some (List.ofFn (fun r => ((List.ofFn x).take (r.val + 1)).foldl op e))
    obtain ⟨a, l, hx⟩ := ofFn_eq_cons rfl x
    have hlen : (a :: l).length = n + 1 := by rw [← hx]; simp
    unfold semScan
    rw [hx]
    simp only
    congr 1
    apply List.ext_getElem
    · simp at hlen; simp [hlen]
    · intro i h1 h2
      rw [scanl_getElem, List.getElem_ofFn]
      simp [he]

end HBT.Spmd
