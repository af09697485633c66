import Verif.Model.GadgetSnap
import Verif.Props.Bytes
import Verif.Lemmas.Mpi
import Verif.Lemmas.Config
/-!
# Lemmas on the Gadget snapshot reader: members, records and the header
-/
namespace HBT.GS
open HBT HBT.Model HBT.Spec HBT.Props

/-- The file `f` with content `c` stands right before the bytes `s`. -/
def At (c : List Byte) (f : File) (s : List Byte) : Prop :=
  ∃ pre, c = pre ++ s ∧ f = ⟨c, pre.length⟩

theorem inOrder_length (fe le : Bool) (w : List Byte) : (inOrder fe le w).length = w.length := by
  unfold inOrder; split <;> simp

theorem inOrder_bytes32 (fe le : Bool) (x : BitVec 32) : inOrder fe le (bytes32 le x) = bytes32 fe x := by
  unfold inOrder
  split
  · next h => rw [h]
  · next h =>
    have : fe = !le := by cases fe <;> cases le <;> simp_all
    rw [this, bytes32_not]

theorem intBytes_inOrder (fe le : Bool) (n : Nat) (x : Int) :
    inOrder fe le (intBytes le n x) = intBytes fe n x := by
  unfold inOrder intBytes
  cases fe <;> cases le <;> simp

theorem lowBytes_length (n x : Nat) : (lowBytes n x).length = n := by
  induction n generalizing x with
  | zero => rfl
  | succ n ih => simp [lowBytes, ih]

theorem intBytes_length (fe : Bool) (n : Nat) (x : Int) : (intBytes fe n x).length = n := by
  unfold intBytes
  cases fe <;> simp [lowBytes_length]

theorem flatten_length (m : Nat) (ws : List (List Byte)) (h : ∀ w ∈ ws, w.length = m) :
    ws.flatten.length = ws.length * m := by
  induction ws with
  | nil => simp
  | cons w ws ih =>
    simp only [List.flatten_cons, List.length_append, List.length_cons]
    rw [ih (fun x hx => h x (by simp [hx])), h w (by simp), Nat.succ_mul, Nat.add_comm]

theorem members_flatten (m : Nat) (ws : List (List Byte)) (h : ∀ w ∈ ws, w.length = m) :
    members m ws.length ws.flatten = ws := by
  induction ws with
  | nil => rfl
  | cons w ws ih =>
    have hw := h w (by simp)
    simp only [List.length_cons, members, List.flatten_cons]
    rw [List.take_left' hw, List.drop_left' hw, ih (fun x hx => h x (by simp [hx]))]

theorem swapNbyte_words (le : Bool) (m : Nat) (ws : List (List Byte)) (h : ∀ w ∈ ws, w.length = m) :
    swapNbyte le (ws.map List.reverse).flatten ws.length m = .ok ws.flatten := by
  induction ws with
  | nil => rfl
  | cons w ws ih =>
    have hw : w.reverse.length = m := by simp [h w (by simp)]
    simp only [List.length_cons, List.map_cons, List.flatten_cons, swapNbyte]
    rw [if_neg (by rw [List.length_append]; omega), List.take_left' hw, List.drop_left' hw,
      ih (fun x hx => h x (by simp [hx])), Outcome.bind_ok, swapElement_eq le m _ hw, List.reverse_reverse]

/-- Reading members written in byte order `fe`: the members as they are in memory. -/
theorem freadSwap_words (fe le : Bool) (m : Nat) (ws : List (List Byte)) (h : ∀ w ∈ ws, w.length = m)
    (c : List Byte) (f : File) (rest : List Byte) (buf : List Byte) (hbuf : buf.length ≤ ws.length * m)
    (hat : At c f ((ws.map (inOrder fe le)).flatten ++ rest)) :
    (f.read (m * ws.length)).1.length = m * ws.length ∧
    ∃ f', freadSwap le buf m ws.length f (fe != le) = .ok (ws.flatten, f') ∧ At c f' rest := by
  obtain ⟨pre, hc, hf⟩ := hat
  have hlen : ((ws.map (inOrder fe le)).flatten).length = m * ws.length := by
    rw [flatten_length m _ (by simpa [inOrder_length] using h), List.length_map, Nat.mul_comm]
  have hread : f.read (m * ws.length) =
      ((ws.map (inOrder fe le)).flatten, ⟨c, pre.length + m * ws.length⟩) := by
    have : (c.drop pre.length).take (m * ws.length) = (ws.map (inOrder fe le)).flatten := by
      rw [hc, List.drop_left, List.take_left' hlen]
    subst hf
    simp only [File.read, this, hlen]
  have hnext : At c ⟨c, pre.length + m * ws.length⟩ rest :=
    ⟨pre ++ (ws.map (inOrder fe le)).flatten, by rw [hc]; simp, by rw [List.length_append, hlen]⟩
  refine ⟨by rw [hread]; exact hlen, _, ?_, hnext⟩
  unfold freadSwap
  simp only [hread]
  have hrep : buf.drop ((ws.map (inOrder fe le)).flatten).length = [] := by
    rw [List.drop_eq_nil_iff, hlen, Nat.mul_comm]; exact hbuf
  rw [hrep, List.append_nil]
  by_cases he : fe = le
  · subst he
    have : ws.map (inOrder fe fe) = ws := by
      conv_rhs => rw [← List.map_id ws]
      exact List.map_congr_left (fun w _ => by simp [inOrder])
    simp [this]
  · have h1 : (fe != le) = true := by simpa using he
    have h2 : ws.map (inOrder fe le) = ws.map List.reverse := by simp [inOrder, he]
    rw [h1, h2, swapNbyte_words le m ws h]
    rfl

theorem myfread_words (fe le : Bool) (m n : Nat) (ws : List (List Byte)) (hn : ws.length = n)
    (h : ∀ w ∈ ws, w.length = m)
    (c : List Byte) (f : File) (rest : List Byte)
    (hat : At c f ((ws.map (inOrder fe le)).flatten ++ rest)) :
    ∃ f', myfread le m n f (fe != le) = .ok (ws, f') ∧ At c f' rest := by
  subst hn
  obtain ⟨h1, f', h2, h3⟩ := freadSwap_words fe le m ws h c f rest [] (by simp) hat
  refine ⟨f', ?_, h3⟩
  unfold myfread
  rw [if_neg (by omega), h2, Outcome.bind_ok]
  simp only
  rw [members_flatten m ws h]

theorem At_marker {c : List Byte} {f : File} {rest : List Byte} (fe le : Bool) (x : BitVec 32)
    (hat : At c f (bytes32 fe x ++ rest)) :
    ∃ f', readBlockSize le f (fe != le) = .ok (x.toInt, f') ∧ At c f' rest := by
  obtain ⟨pre, hc, hf⟩ := hat
  subst hf
  refine ⟨_, readBlockSize_ok le fe x _ ?_, pre ++ bytes32 fe x, by rw [hc]; simp, ?_⟩
  · simp only
    rw [hc, List.drop_left, List.take_left' (bytes32_length _ _)]
  · simp [bytes32_length]

theorem At_seek {c : List Byte} {f : File} {a rest : List Byte} (hat : At c f (a ++ rest)) (n : Int)
    (hn : n = a.length) : At c (f.seekCur n) rest := by
  obtain ⟨pre, hc, hf⟩ := hat
  subst hf
  refine ⟨pre ++ a, by rw [hc]; simp, ?_⟩
  unfold File.seekCur
  rw [if_neg (by simp only; omega)]
  simp only [File.mk.injEq, true_and, List.length_append]; omega

/-- Reading part of a record of members. -/
theorem fortranRead_words (fe le : Bool) (m nRead nSkip : Nat) (ws : List (List Byte))
    (h : ∀ w ∈ ws, w.length = m) (hsmall : ws.length * m < 2 ^ 31) (hfit : nSkip + nRead ≤ ws.length)
    (payload : List Byte) (hp : payload = (ws.map (inOrder fe le)).flatten)
    (c : List Byte) (f : File) (rest : List Byte)
    (hat : At c f (record fe payload ++ rest)) :
    ∃ f', fortranRead le m nRead nSkip f (fe != le) = .ok (((ws.drop nSkip).take nRead).flatten, f') ∧
      At c f' rest := by
  have hlen : ∀ (us : List (List Byte)), (∀ w ∈ us, w.length = m) →
      ((us.map (inOrder fe le)).flatten).length = us.length * m := by
    intro us hu
    rw [flatten_length m _ (by simpa [inOrder_length] using hu), List.length_map]
  have hpl : payload.length = ws.length * m := by rw [hp, hlen ws h]
  have hsub : ∀ (us : List (List Byte)), us.Sublist ws → ∀ w ∈ us, w.length = m :=
    fun us hu w hw => h w (hu.subset hw)
  have h1 := hsub _ (List.take_sublist nSkip ws)
  have h2 := hsub _ ((List.take_sublist nRead _).trans (List.drop_sublist nSkip ws))
  have h3 := hsub _ ((List.drop_sublist nRead _).trans (List.drop_sublist nSkip ws))
  have hsplit : payload = ((ws.take nSkip).map (inOrder fe le)).flatten ++
      ((((ws.drop nSkip).take nRead).map (inOrder fe le)).flatten ++
        (((ws.drop nSkip).drop nRead).map (inOrder fe le)).flatten) := by
    rw [hp]
    rw [← List.flatten_append, ← List.map_append, List.take_append_drop, ← List.flatten_append,
      ← List.map_append, List.take_append_drop]
  have hM : record fe payload ++ rest = bytes32 fe (BitVec.ofNat 32 payload.length) ++
      (((ws.take nSkip).map (inOrder fe le)).flatten ++
      ((((ws.drop nSkip).take nRead).map (inOrder fe le)).flatten ++
        ((((ws.drop nSkip).drop nRead).map (inOrder fe le)).flatten ++
          (bytes32 fe (BitVec.ofNat 32 payload.length) ++ rest)))) := by
    unfold record
    conv_lhs => arg 1; arg 1; arg 2; rw [hsplit]
    simp only [List.append_assoc]
  rw [hM] at hat
  obtain ⟨f1, e1, hat⟩ := At_marker fe le _ hat
  have hat := At_seek hat ((nSkip * m : Nat) : Int) (by rw [hlen _ h1, List.length_take]; congr 2; omega)
  have hcount : ((ws.drop nSkip).take nRead).length = nRead := by
    rw [List.length_take, List.length_drop]; omega
  obtain ⟨_, f2, e2, hat⟩ := freadSwap_words fe le m _ h2 c _ _ (List.replicate (m * nRead) 0#8)
    (by rw [hcount, List.length_replicate, Nat.mul_comm]) hat
  rw [hcount] at e2
  have hat := At_seek hat ((payload.length : Int) - ((nSkip + nRead) * m : Nat))
    (by
      rw [hlen _ h3, hpl, List.length_drop, List.length_drop]
      have : ws.length * m = (nSkip + nRead) * m + (ws.length - nSkip - nRead) * m := by
        rw [← Nat.add_mul]; congr 1; omega
      rw [this]; omega)
  obtain ⟨f3, e3, hat⟩ := At_marker fe le _ hat
  rw [toInt_ofNat_small _ (by omega)] at e1 e3
  refine ⟨f3, ?_, hat⟩
  unfold fortranRead
  rw [e1, Outcome.bind_ok]
  simp only
  rw [e2, Outcome.bind_ok]
  simp only
  rw [e3, Outcome.bind_ok]
  simp

theorem skip_record (fe le : Bool) (payload : List Byte) (hsmall : payload.length < 2 ^ 31)
    (c : List Byte) (f : File) (rest : List Byte) (hat : At c f (record fe payload ++ rest)) :
    ∃ f', skipFortranBlock le f (fe != le) = .ok ((payload.length : Int), f') ∧ At c f' rest := by
  unfold record at hat
  rw [List.append_assoc, List.append_assoc] at hat
  obtain ⟨f1, e1, hat⟩ := At_marker fe le _ hat
  have hat := At_seek hat (payload.length : Int) rfl
  obtain ⟨f3, e3, hat⟩ := At_marker fe le _ hat
  rw [toInt_ofNat_small _ hsmall] at e1 e3
  refine ⟨f3, ?_, hat⟩
  unfold skipFortranBlock
  rw [e1, Outcome.bind_ok]
  simp only
  rw [e3, Outcome.bind_ok]
  simp

theorem six_ofFn {α : Type} (g : Fin 6 → α) : six (List.ofFn g) = .ok g := by
  unfold six
  rw [dif_pos (by simp)]
  congr 1
  funext i
  rw [List.getElem_ofFn]

theorem word32_bytes32 (le : Bool) (x : BitVec 32) : word32 le (bytes32 le x) = x := by
  obtain ⟨a, b, c, d, h, hl⟩ := load32_bytes32 le x
  rw [h, word32, hl]

/-- The header the program should find. -/
def headerOf {K : Type} (real8 : List Byte → K) (le : Bool) (f : RawFile) : GadgetHeader K where
  npart t := (f.parts t).length
  mass t := real8 (f.header.masses t)
  scaleFactor := real8 f.header.scaleFactor
  redshift := real8 f.header.redshift
  flagSfr := (word32 le f.header.flagSfr).toInt
  flagFeedback := (word32 le f.header.flagFeedback).toInt
  npartTotal t := f.header.totals t % 2 ^ 32
  flagCooling := (word32 le f.header.flagCooling).toInt
  numFiles := f.header.numFiles
  boxSize := real8 f.header.boxSize
  omegaM0 := real8 f.header.omegaM0
  omegaLambda0 := real8 f.header.omegaLambda0
  hubbleParam := real8 f.header.hubbleParam

theorem headerBytes_length (fe le : Bool) (f : RawFile) (h : f.header.WellSized) :
    (headerBytes fe le f).length = 256 := by
  have e1 : ∀ (g : Fin 6 → List Byte) (m : Nat), (∀ t, (g t).length = m) →
      ((List.ofFn g).flatten).length = 6 * m := by
    intro g m hg
    rw [flatten_length m]
    · simp
    · intro w hw
      rw [List.mem_ofFn] at hw
      obtain ⟨t, rfl⟩ := hw
      exact hg t
  unfold headerBytes
  simp only [List.length_append, inOrder_length, bytes32_length, h.scaleFactor, h.redshift, h.flagSfr,
    h.flagFeedback, h.flagCooling, h.boxSize, h.omegaM0, h.omegaLambda0, h.hubbleParam, h.fill]
  rw [e1 _ 4 (fun t => bytes32_length _ _), e1 _ 8 (fun t => by rw [inOrder_length, h.masses]),
    e1 _ 4 (fun t => bytes32_length _ _)]

theorem marker256 (fe le : Bool) (c rest : List Byte) (hc : c = bytes32 fe 256#32 ++ rest) :
    ∃ x f, readBlockSize le ⟨c, 0⟩ false = .ok (x, f) ∧ At c f rest ∧
      endiannessCheck x = .ok (fe != le) := by
  subst hc
  have hat : At (bytes32 fe 256#32 ++ rest) ⟨bytes32 fe 256#32 ++ rest, (bytes32 fe 256#32).length⟩ rest :=
    ⟨bytes32 fe 256#32, rfl, rfl⟩
  cases fe <;> cases le <;> exact ⟨_, _, rfl, hat, by decide⟩

theorem readMembers_words (fe le : Bool) (wss : List (List (List Byte))) (fmt : List (Nat × Nat))
    (hfmt : List.Forall₂ (fun ws mn => ws.length = mn.2 ∧ ∀ w ∈ ws, w.length = mn.1) wss fmt)
    (c : List Byte) (f : File) (rest : List Byte)
    (hat : At c f ((wss.map (fun ws => (ws.map (inOrder fe le)).flatten)).flatten ++ rest)) :
    ∃ f', readMembers le (fe != le) fmt f = .ok (wss, f') ∧ At c f' rest := by
  induction hfmt generalizing f with
  | nil => exact ⟨f, rfl, by simpa using hat⟩
  | @cons ws mn wss fmt hw _ ih =>
    obtain ⟨m, n⟩ := mn
    simp only [List.map_cons, List.flatten_cons, List.append_assoc] at hat
    obtain ⟨f1, e1, hat⟩ := myfread_words fe le m n ws hw.1 hw.2 c f _ hat
    obtain ⟨f2, e2, hat⟩ := ih f1 hat
    exact ⟨f2, by rw [readMembers, e1, Outcome.bind_ok]; simp only; rw [e2, Outcome.bind_ok], hat⟩

/-- The words of the header, in memory. -/
def headerWords (le : Bool) (rf : RawFile) : List (List (List Byte)) :=
  [List.ofFn fun t => bytes32 le (BitVec.ofNat 32 (rf.parts t).length), List.ofFn rf.header.masses,
   [rf.header.scaleFactor], [rf.header.redshift], [rf.header.flagSfr], [rf.header.flagFeedback],
   List.ofFn fun t => bytes32 le (BitVec.ofNat 32 (rf.header.totals t)), [rf.header.flagCooling],
   [bytes32 le (BitVec.ofNat 32 rf.header.numFiles)], [rf.header.boxSize], [rf.header.omegaM0],
   [rf.header.omegaLambda0], [rf.header.hubbleParam]]

theorem decodeHeader_ok {K : Type} (env : GadgetEnv K) (rf : RawFile)
    (hnp : ∀ t, (rf.parts t).length < 2 ^ 31) (hnf : rf.header.numFiles < 2 ^ 31) :
    decodeHeader env (headerWords env.le rf) = .ok (headerOf env.real8 env.le rf) := by
  unfold headerWords decodeHeader
  simp only [six_ofFn, Outcome.bind_ok, word32_bytes32, headerOf, toInt_ofNat_small _ hnf, Outcome.ok.injEq,
    GadgetHeader.mk.injEq, true_and, and_true]
  exact ⟨funext fun t => toInt_ofNat_small _ (hnp t), funext fun t => by simp⟩

theorem headerBytes_words (fe le : Bool) (rf : RawFile) : headerBytes fe le rf =
    ((headerWords le rf).map (fun ws => (ws.map (inOrder fe le)).flatten)).flatten ++ rf.header.fill := by
  have r32 : ∀ g : Fin 6 → BitVec 32, (List.ofFn fun t => bytes32 le (g t)).map (inOrder fe le) =
      List.ofFn fun t => bytes32 fe (g t) := by
    intro g
    rw [List.map_ofFn]
    congr 1
    funext t
    exact inOrder_bytes32 _ _ _
  have r8 : ∀ g : Fin 6 → List Byte, (List.ofFn g).map (inOrder fe le) =
      List.ofFn fun t => inOrder fe le (g t) := by
    intro g
    rw [List.map_ofFn]
    rfl
  unfold headerWords headerBytes
  simp only [List.map_cons, List.map_nil, List.flatten_cons, List.flatten_nil, List.append_nil, r32, r8,
    inOrder_bytes32, List.append_assoc]

theorem headerWords_format (le : Bool) (rf : RawFile) (h : rf.header.WellSized) :
    List.Forall₂ (fun ws mn => ws.length = mn.2 ∧ ∀ w ∈ ws, w.length = mn.1) (headerWords le rf)
      headerFormat := by
  have l4 : ∀ g : Fin 6 → BitVec 32, ∀ w ∈ List.ofFn (fun t => bytes32 le (g t)), w.length = 4 := by
    intro g w hw
    rw [List.mem_ofFn] at hw
    obtain ⟨t, rfl⟩ := hw
    exact bytes32_length _ _
  have l8 : ∀ w ∈ List.ofFn rf.header.masses, w.length = 8 := by
    intro w hw
    rw [List.mem_ofFn] at hw
    obtain ⟨t, rfl⟩ := hw
    exact h.masses t
  have l1 : ∀ (m : Nat) (w : List Byte), w.length = m → [w].length = 1 ∧ ∀ v ∈ [w], v.length = m := by
    intro m w hw
    simpa using hw
  exact .cons ⟨List.length_ofFn, l4 _⟩ (.cons ⟨List.length_ofFn, l8⟩ (.cons (l1 _ _ h.scaleFactor)
    (.cons (l1 _ _ h.redshift) (.cons (l1 _ _ h.flagSfr) (.cons (l1 _ _ h.flagFeedback)
    (.cons ⟨List.length_ofFn, l4 _⟩ (.cons (l1 _ _ h.flagCooling) (.cons (l1 _ _ (bytes32_length _ _))
    (.cons (l1 _ _ h.boxSize) (.cons (l1 _ _ h.omegaM0) (.cons (l1 _ _ h.omegaLambda0)
    (.cons (l1 _ _ h.hubbleParam) .nil))))))))))))

/-- The header of a file is read as written, in either byte order. -/
theorem readGadgetHeader_ok {K : Type} (env : GadgetEnv K) (fe : Bool)
    (rf : RawFile) (h : rf.header.WellSized) (hnp : ∀ t, (rf.parts t).length < 2 ^ 31)
    (hnf : rf.header.numFiles < 2 ^ 31) (c rest : List Byte)
    (hc : c = record fe (headerBytes fe env.le rf) ++ rest) :
    ∃ f, readGadgetHeader env c = .ok (fe != env.le, headerOf env.real8 env.le rf, f) ∧ At c f rest := by
  have hlen := headerBytes_length fe env.le rf h
  have hc' : c = bytes32 fe 256#32 ++ (headerBytes fe env.le rf ++ (bytes32 fe 256#32 ++ rest)) := by
    rw [hc]; unfold record; rw [hlen]; simp [List.append_assoc]
  obtain ⟨x, f, e0, hat, esw⟩ := marker256 fe env.le c _ hc'
  rw [headerBytes_words, List.append_assoc] at hat
  obtain ⟨f1, e1, hat⟩ := readMembers_words fe env.le _ _ (headerWords_format env.le rf h) c f _ hat
  have hcont : f1.content = c := by
    obtain ⟨_, _, hf⟩ := hat
    rw [hf]
  have hat2 : At c { f1 with pos := 256 + 4 } (bytes32 fe 256#32 ++ rest) := by
    refine ⟨bytes32 fe 256#32 ++ headerBytes fe env.le rf, by rw [hc']; simp, ?_⟩
    rw [hcont, List.length_append, bytes32_length, hlen]
  obtain ⟨f2, e2, hat⟩ := At_marker fe env.le _ hat2
  refine ⟨f2, ?_, hat⟩
  unfold readGadgetHeader
  rw [e0, Outcome.bind_ok]
  simp only
  rw [esw, Outcome.bind_ok, e1, Outcome.bind_ok]
  simp only
  rw [e2, Outcome.bind_ok]
  simp only
  rw [if_neg (by decide), decodeHeader_ok env rf hnp hnf, Outcome.bind_ok]

end HBT.GS
