import Verif.Lemmas.GadgetSnap
import Mathlib.Data.List.FinRange
/-!
# Lemmas on the Gadget snapshot reader: the particle records
-/
namespace HBT.GS
open HBT HBT.Model HBT.Spec HBT.Props

set_option linter.unusedSectionVars false

/-! ## Ids -/

theorem foldr_lowBytes (n x : Nat) :
    (lowBytes n x).foldr (fun (b : Byte) a => b.toNat + 256 * a) 0 = x % 256 ^ n := by
  induction n generalizing x with
  | zero => simp [lowBytes, Nat.mod_one]
  | succ n ih =>
    rw [lowBytes, List.foldr_cons, ih]
    simp only [BitVec.toNat_ofNat]
    rw [Nat.pow_succ' (m := 256), Nat.mod_mul]

theorem loadNat_intBytes (le : Bool) (n : Nat) (x : Int) :
    (loadNat le (intBytes le n x) : Int) = x % (256 ^ n : Nat) := by
  have hpos : (0 : Int) < (256 ^ n : Nat) := by exact_mod_cast Nat.pow_pos (by omega)
  have h0 := Int.emod_nonneg x (b := ((256 ^ n : Nat) : Int)) (by omega)
  have h1 := Int.emod_lt_of_pos x hpos
  have : (lowBytes n (x % (256 ^ n : Nat)).toNat).foldr (fun (b : Byte) a => b.toNat + 256 * a) 0
      = (x % (256 ^ n : Nat)).toNat := by
    rw [foldr_lowBytes, Nat.mod_eq_of_lt]
    omega
  unfold loadNat intBytes
  cases le <;> simp only [if_true, Bool.false_eq_true, if_false, List.reverse_reverse] <;>
  · rw [this]; omega

theorem bmod_small (x : Int) (m : Nat) (h1 : -((m : Int) / 2) ≤ x) (h2 : x < ((m : Int) + 1) / 2) :
    x.bmod m = x := by
  exact Int.bmod_eq_of_le h1 h2

theorem memberId_ok {K : Type} (env : GadgetEnv K) (isz : Nat) (x : Int) (hi : isz = 4 ∨ isz = 8)
    (hb : env.intBytes = 4 ∨ env.intBytes = 8) (hle : isz ≤ env.intBytes)
    (hx : IdFits env.idUnsigned isz env.intBytes x) :
    memberId env isz (intBytes env.le isz x) = x := by
  unfold memberId IdFits at *
  rw [loadNat_intBytes]
  simp only
  split at hx
  · next h =>
    rw [if_pos (by simpa using h)]
    obtain ⟨rfl, _⟩ := h
    have e : x % ((256 ^ 4 : Nat) : Int) = x := by
      apply Int.emod_eq_of_lt <;> omega
    rw [e]
    rcases hb with hb | hb <;> rw [hb] at hx ⊢
    · apply bmod_small <;> norm_num <;> omega
    · apply bmod_small <;> norm_num <;> omega
  · next h =>
    rw [if_neg (by simpa using h), Int.emod_bmod]
    have e : x.bmod (256 ^ isz) = x := by
      rcases hi with rfl | rfl
      · rw [if_pos rfl] at hx
        apply bmod_small <;> norm_num <;> omega
      · rw [if_neg (by omega)] at hx
        apply bmod_small <;> norm_num <;> omega
    rw [e]
    rcases hi with rfl | rfl
    · rw [if_pos rfl] at hx
      rcases hb with hb | hb <;> rw [hb] <;> apply bmod_small <;> norm_num <;> omega
    · rw [if_neg (by omega)] at hx
      have hb : env.intBytes = 8 := by omega
      rw [hb]
      apply bmod_small <;> norm_num <;> omega

/-! ## Rows -/

theorem drop_flatMap_const {α β : Type} (g : α → List β) (k : Nat) (h : ∀ x, (g x).length = k)
    (l : List α) (n : Nat) : (l.flatMap g).drop (n * k) = (l.drop n).flatMap g := by
  induction n generalizing l with
  | zero => simp
  | succ n ih =>
    cases l with
    | nil => simp
    | cons a l =>
      rw [List.flatMap_cons, Nat.succ_mul, Nat.add_comm, ← List.drop_drop, List.drop_left' (h a), ih]
      simp

theorem take_flatMap_const {α β : Type} (g : α → List β) (k : Nat) (h : ∀ x, (g x).length = k)
    (l : List α) (n : Nat) : (l.flatMap g).take (n * k) = (l.take n).flatMap g := by
  induction n generalizing l with
  | zero => simp
  | succ n ih =>
    cases l with
    | nil => simp
    | cons a l =>
      rw [List.flatMap_cons, Nat.succ_mul, Nat.add_comm, List.take_append, h a, List.take_of_length_le (by
        rw [h a]; omega), Nat.add_sub_cancel_left, ih]
      simp

theorem rows3_flatMap {α β : Type} (g : α → Fin 3 → β) (l : List α) :
    rows3 (l.flatMap fun p => List.ofFn (g p)) = l.map g := by
  induction l with
  | nil => rfl
  | cons p l ih =>
    have e : List.ofFn (g p) = [g p 0, g p 1, g p 2] := by simp [List.ofFn_succ]
    rw [List.flatMap_cons, e]
    simp only [List.cons_append, List.nil_append, rows3, List.map_cons, ih]
    congr 1
    funext j
    match j with
    | 0 => rfl
    | 1 => rfl
    | 2 => rfl

/-! ## Types of particles -/

variable {K : Type} [Field K] [LinearOrder K] [IsStrictOrderedRing K] [FloorRing K]

theorem all_eq (f : RawFile) : f.all = (List.finRange 6).flatMap f.parts := by
  unfold RawFile.all
  rw [List.ofFn_eq_map, List.flatMap_def]

theorem sumTypes_eq (np : Fin 6 → Nat) : sumTypes np = ((List.finRange 6).map np).sum := by
  unfold sumTypes
  rw [List.ofFn_eq_map]

theorem sumTypes_all (f : RawFile) : sumTypes (fun t => (f.parts t).length) = f.all.length := by
  rw [sumTypes_eq, all_eq, List.length_flatMap]

/-- The counts used by `ReadGadgetFile`. -/
theorem wanted_slice (R : Reading K) (f : RawFile) :
    (f.all.drop (if R.dmOnly then (f.parts 0).length else 0)).take
      (if R.dmOnly then (f.parts 1).length else f.all.length) = (R.wanted f).map Prod.snd := by
  unfold Reading.wanted
  cases h : R.dmOnly
  · simp [all_eq, List.map_flatMap, Function.comp_def]
  · have : (List.finRange 6) = [0, 1, 2, 3, 4, 5] := by decide
    simp [all_eq, this, Function.comp_def]

theorem wanted_length (R : Reading K) (f : RawFile) : (R.wanted f).length =
    if R.dmOnly then (f.parts 1).length else f.all.length := by
  unfold Reading.wanted
  cases h : R.dmOnly
  · simp [all_eq, List.length_flatMap]
  · have : (List.finRange 6) = [0, 1, 2, 3, 4, 5] := by decide
    simp [this]

theorem wanted_skip (R : Reading K) (f : RawFile) :
    (if R.dmOnly then (f.parts 0).length else 0) + (if R.dmOnly then (f.parts 1).length else f.all.length)
      ≤ f.all.length := by
  cases R.dmOnly
  · simp
  · have : (List.finRange 6) = [0, 1, 2, 3, 4, 5] := by decide
    simp [all_eq, this]

theorem gadgetTypes_eq (env : GadgetEnv K) (R : Reading K) (hd : R.dmOnly = env.dmOnly) (f : RawFile) :
    gadgetTypes env (fun t => (f.parts t).length) (R.wanted f).length =
      (R.wanted f).map fun tp => if R.dmOnly then none else some tp.1.val := by
  unfold gadgetTypes
  rw [← hd]
  cases h : R.dmOnly
  · unfold Reading.wanted
    simp only [h, Bool.false_eq_true, if_false, false_and]
    rw [List.map_flatMap]
    congr 1
    funext t
    rw [List.map_map]
    simp [Function.comp_def, List.map_const']
  · simp [List.map_const']

theorem readEnergy_other (env : GadgetEnv K) (R : Reading K) (hd : R.dmOnly = env.dmOnly)
    (ht : R.thermal = env.thermal) (h : ¬ (env.dmOnly = false ∧ env.thermal = true)) (rs : Nat)
    (f : RawFile) (np : Fin 6 → Nat) (fl : File) (swap : Bool) :
    readEnergy env rs np (R.wanted f).length fl swap = .ok ((R.wanted f).map (fun tp =>
      if R.dmOnly = false ∧ R.thermal = true ∧ tp.1 = 0 then some (R.real tp.2.energy) else none), fl) := by
  unfold readEnergy
  rw [if_neg h]
  congr 2
  rw [hd, ht]
  have : ∀ tp : Fin 6 × RawParticle, (if env.dmOnly = false ∧ env.thermal = true ∧ tp.1 = 0
      then some (R.real tp.2.energy) else none) = none := by
    intro tp
    rw [if_neg]
    rintro ⟨h1, h2, _⟩
    exact h ⟨h1, h2⟩
  simp only [this, List.map_const']

theorem energy_list (R : Reading K) (hd : R.dmOnly = false) (ht : R.thermal = true) (f : RawFile) :
    (f.parts 0).map (fun p => some (R.real p.energy)) ++
      List.replicate ((R.wanted f).length - (f.parts 0).length) none =
    (R.wanted f).map (fun tp =>
      if R.dmOnly = false ∧ R.thermal = true ∧ tp.1 = 0 then some (R.real tp.2.energy) else none) := by
  have hfr : (List.finRange 6) = [0, 1, 2, 3, 4, 5] := by decide
  have hsplit : R.wanted f = (f.parts 0).map (fun p => ((0 : Fin 6), p)) ++
      [1, 2, 3, 4, 5].flatMap (fun t : Fin 6 => (f.parts t).map fun p => (t, p)) := by
    unfold Reading.wanted
    rw [hfr]
    simp [hd]
  rw [hsplit, List.length_append, List.length_map, Nat.add_sub_cancel_left, List.map_append, List.map_map]
  congr 1
  · apply List.map_congr_left
    intro p _
    simp [hd, ht]
  · symm
    rw [List.eq_replicate_iff]
    refine ⟨by simp, ?_⟩
    intro b hb
    rw [List.mem_map] at hb
    obtain ⟨tp, htp, rfl⟩ := hb
    rw [List.mem_flatMap] at htp
    obtain ⟨t, ht1, ht2⟩ := htp
    rw [List.mem_map] at ht2
    obtain ⟨p, _, rfl⟩ := ht2
    rw [if_neg]
    rintro ⟨_, _, h0⟩
    simp only at h0
    subst h0
    revert ht1
    decide

theorem assemble_map {α : Type} (W : List α) (x v : α → Fin 3 → K) (i : Nat → α → Int) (m : α → K)
    (t : α → Option Nat) (e : α → Option K) :
    gadgetAssemble (W.map x) (W.map v) (W.mapIdx i) (W.map m) (W.map t) (W.map e) =
      W.mapIdx fun n a => ⟨x a, v a, i n a, m a, t a, e a⟩ := by
  induction W generalizing i with
  | nil => rfl
  | cons a W ih =>
    simp only [List.map_cons, List.mapIdx_cons, gadgetAssemble, ih]

/-! ## Records of a file -/

theorem readXYZ_ok (env : GadgetEnv K) (fe : Bool) (rs : Nat) (f : RawFile)
    (attr : RawParticle → Fin 3 → List Byte) (hsz : ∀ p ∈ f.all, ∀ j, (attr p j).length = rs)
    (hsmall : f.all.length * 3 * rs < 2 ^ 31) (nRead nSkip : Nat) (hfit : nSkip + nRead ≤ f.all.length)
    (c rest : List Byte) (fl : File)
    (hat : At c fl (record fe (f.all.flatMap fun p => (List.ofFn (attr p)).flatMap (inOrder fe env.le)) ++ rest)) :
    ∃ fl', readXYZ env rs nRead nSkip fl (fe != env.le) =
        .ok (((f.all.drop nSkip).take nRead).map (fun p j => blockReal env rs (attr p j)), fl') ∧
      At c fl' rest := by
  have h3 : ∀ p : RawParticle, (List.ofFn (attr p)).length = 3 := fun p => List.length_ofFn
  have hlen : (f.all.flatMap fun p => List.ofFn (attr p)).length = f.all.length * 3 := by
    rw [List.length_flatMap]
    simp [List.map_const']
  obtain ⟨fl', e, hat⟩ := fortranRead_words fe env.le rs (nRead * 3) (nSkip * 3)
    (f.all.flatMap fun p => List.ofFn (attr p))
    (by
      intro w hw
      rw [List.mem_flatMap] at hw
      obtain ⟨p, hp, hw⟩ := hw
      rw [List.mem_ofFn] at hw
      obtain ⟨j, rfl⟩ := hw
      exact hsz p hp j)
    (by rw [hlen]; exact hsmall) (by rw [hlen]; omega)
    _ (by simp only [List.flatMap_def, List.map_flatten, List.map_map, List.flatten_flatten]; rfl) c fl rest hat
  refine ⟨fl', ?_, hat⟩
  unfold readXYZ
  rw [e, Outcome.bind_ok]
  simp only
  rw [drop_flatMap_const _ 3 h3, take_flatMap_const _ 3 h3]
  have hcount : (((f.all.drop nSkip).take nRead).flatMap fun p => List.ofFn (attr p)).length = nRead * 3 := by
    rw [List.length_flatMap]
    simp [List.map_const', List.length_take]
    omega
  have hm := members_flatten rs (((f.all.drop nSkip).take nRead).flatMap fun p => List.ofFn (attr p))
    (by
      intro w hw
      rw [List.mem_flatMap] at hw
      obtain ⟨p, hp, hw⟩ := hw
      rw [List.mem_ofFn] at hw
      obtain ⟨j, rfl⟩ := hw
      exact hsz p (List.mem_of_mem_drop (List.mem_of_mem_take hp)) j)
  rw [hcount] at hm
  rw [hm, List.map_flatMap]
  have : ∀ p : RawParticle, (List.ofFn (attr p)).map (blockReal env rs) =
      List.ofFn (fun j => blockReal env rs (attr p j)) := fun p => List.map_ofFn
  simp only [this]
  rw [rows3_flatMap]

/-- Reading a record with one member for each of some particles. -/
theorem readScalars (fe le : Bool) (m : Nat) (ps : List RawParticle) (attr : RawParticle → List Byte)
    (hsz : ∀ p ∈ ps, (attr p).length = m) (hsmall : ps.length * m < 2 ^ 31) (nRead nSkip : Nat)
    (hfit : nSkip + nRead ≤ ps.length) (c rest : List Byte) (fl : File)
    (hat : At c fl (record fe (ps.flatMap fun p => inOrder fe le (attr p)) ++ rest)) :
    ∃ d fl', fortranRead le m nRead nSkip fl (fe != le) = .ok (d, fl') ∧
      members m nRead d = ((ps.drop nSkip).take nRead).map attr ∧ At c fl' rest := by
  obtain ⟨fl', e, hat⟩ := fortranRead_words fe le m nRead nSkip (ps.map attr)
    (by
      intro w hw
      rw [List.mem_map] at hw
      obtain ⟨p, hp, rfl⟩ := hw
      exact hsz p hp)
    (by rw [List.length_map]; exact hsmall) (by rw [List.length_map]; exact hfit)
    _ (by simp only [List.flatMap_def, List.map_map]; rfl) c fl rest hat
  refine ⟨_, fl', e, ?_, hat⟩
  rw [← List.map_drop, ← List.map_take]
  have hcount : (((ps.drop nSkip).take nRead).map attr).length = nRead := by
    rw [List.length_map, List.length_take, List.length_drop]; omega
  have hm := members_flatten m (((ps.drop nSkip).take nRead).map attr) (by
      intro w hw
      rw [List.mem_map] at hw
      obtain ⟨p, hp, rfl⟩ := hw
      exact hsz p (List.mem_of_mem_drop (List.mem_of_mem_take hp)))
  rw [hcount] at hm
  exact hm

/-! ## Masses -/

theorem mass_present (env : GadgetEnv K) (f : RawFile) (t : Fin 6)
    (htot : f.parts t ≠ [] → f.header.totals t % 2 ^ 32 ≠ 0) (hne : f.parts t ≠ []) :
    massDataPresent (headerOf env.real8 env.le f) t = decide (env.real8 (f.header.masses t) = 0) := by
  have := htot hne
  unfold massDataPresent headerOf
  simp only [ne_eq, this, not_false_eq_true, decide_true, Bool.and_true]

theorem massive_eq (f : RawFile) (noMass : List Byte → Bool) : f.massive noMass =
    (List.finRange 6).flatMap (fun t => if noMass (f.header.masses t) then f.parts t else []) := by
  unfold RawFile.massive
  rw [List.ofFn_eq_map, List.flatMap_def]

theorem massive_length (env : GadgetEnv K) (f : RawFile)
    (htot : ∀ t, f.parts t ≠ [] → f.header.totals t % 2 ^ 32 ≠ 0) :
    sumTypes (fun t => if massDataPresent (headerOf env.real8 env.le f) t then (f.parts t).length else 0)
      = (f.massive fun w => decide (env.real8 w = 0)).length := by
  rw [massive_eq, sumTypes_eq, List.length_flatMap]
  congr 1
  apply List.map_congr_left
  intro t _
  by_cases hne : f.parts t = []
  · simp [hne]
  · rw [mass_present env f t (htot t) hne]
    split <;> simp

theorem spreadMass_ok (env : GadgetEnv K) (f : RawFile) (g : RawParticle → K)
    (htot : ∀ t, f.parts t ≠ [] → f.header.totals t % 2 ^ 32 ≠ 0) (ts : List (Fin 6)) (pre : List K)
    (block : List K)
    (hb : block = pre ++ (ts.flatMap fun t =>
      if decide (env.real8 (f.header.masses t) = 0) then f.parts t else []).map g) :
    spreadMass (headerOf env.real8 env.le f) (fun t => (f.parts t).length) block ts pre.length =
      .ok (ts.flatMap fun t => (f.parts t).map fun p =>
        if env.real8 (f.header.masses t) = 0 then g p else env.real8 (f.header.masses t)) := by
  induction ts generalizing pre with
  | nil => rfl
  | cons t ts ih =>
    rw [spreadMass]
    by_cases hne : f.parts t = []
    · have hb' := hb
      rw [List.flatMap_cons, hne, ite_self, List.nil_append] at hb'
      have := ih pre hb'
      split
      · simp only [hne, List.length_nil, Nat.add_zero]
        rw [this]
        have hs : slice block pre.length 0 = .ok [] := by
          unfold slice
          rw [if_pos (by rw [hb']; simp)]
          simp
        rw [hs, Outcome.bind_ok, Outcome.bind_ok]
        simp [hne]
      · simp only [hne, List.length_nil]
        rw [this, Outcome.bind_ok]
        simp [hne]
    · rw [mass_present env f t (htot t) hne]
      by_cases hz : env.real8 (f.header.masses t) = 0
      · rw [List.flatMap_cons] at hb
        simp only [hz, decide_true, if_true] at hb ⊢
        have hb2 : block = (pre ++ (f.parts t).map g) ++ (ts.flatMap fun t =>
            if decide (env.real8 (f.header.masses t) = 0) then f.parts t else []).map g := by
          rw [hb]; simp
        have hs : slice block pre.length (f.parts t).length = .ok ((f.parts t).map g) := by
          unfold slice
          rw [if_pos (by rw [hb]; simp), hb2, List.append_assoc, List.drop_left,
            List.take_left' (by simp)]
        have := ih _ hb2
        rw [List.length_append, List.length_map] at this
        rw [hs, Outcome.bind_ok, this, Outcome.bind_ok]
        simp [hz]
      · rw [List.flatMap_cons] at hb
        simp only [hz, decide_false, Bool.false_eq_true, if_false, List.nil_append] at hb ⊢
        rw [ih pre hb, Outcome.bind_ok]
        simp [hz, headerOf, List.map_const']

/-- What `ReadMassBlock` is to deliver. -/
theorem readMass_ok (env : GadgetEnv K) (R : Reading K) (fe : Bool) (rs : Nat) (f : RawFile)
    (hreal : R.real = blockReal env rs) (hdbl : R.dbl = env.real8) (hdm : R.dmOnly = env.dmOnly)
    (hsz : ∀ t, ∀ p ∈ f.parts t, p.mass.length = rs)
    (htot : ∀ t, f.parts t ≠ [] → f.header.totals t % 2 ^ 32 ≠ 0)
    (hsmall : (f.massive fun w => decide (env.real8 w = 0)).length * rs < 2 ^ 31)
    (hdmmass : env.dmOnly = true → env.real8 (f.header.masses 1) = 0 → f.header.totals 1 % 2 ^ 32 ≠ 0 →
      (f.massive fun w => decide (env.real8 w = 0)) ≠ [])
    (nSkip : Nat) (hskip : env.dmOnly = false → nSkip = 0)
    (c rest : List Byte) (fl : File)
    (hat : At c fl ((if (f.massive fun w => decide (env.real8 w = 0)).isEmpty then []
      else record fe ((f.massive fun w => decide (env.real8 w = 0)).flatMap fun p => inOrder fe env.le p.mass))
        ++ rest)) :
    ∃ fl', readMass env rs (headerOf env.real8 env.le f) (fun t => (f.parts t).length) (R.wanted f).length
        nSkip fl (fe != env.le) = .ok ((R.wanted f).map (fun tp =>
          if R.dbl (f.header.masses tp.1) = 0 then R.real tp.2.mass else R.dbl (f.header.masses tp.1)), fl') ∧
      (env.dmOnly = false → At c fl' rest) := by
  have hszm : ∀ p ∈ f.massive (fun w => decide (env.real8 w = 0)), p.mass.length = rs := by
    intro p hp
    rw [massive_eq, List.mem_flatMap] at hp
    obtain ⟨t, _, hp⟩ := hp
    split at hp
    · exact hsz t p hp
    · simp at hp
  unfold readMass
  cases hd : env.dmOnly
  · -- all types
    rw [hd] at hdm
    simp only [Bool.false_eq_true, if_false]
    rw [massive_length env f htot, hskip hd]
    have hgoal : (R.wanted f).map (fun tp => if R.dbl (f.header.masses tp.1) = 0 then R.real tp.2.mass
        else R.dbl (f.header.masses tp.1)) = (List.finRange 6).flatMap fun t => (f.parts t).map fun p =>
          if env.real8 (f.header.masses t) = 0 then blockReal env rs p.mass else env.real8 (f.header.masses t) := by
      unfold Reading.wanted
      simp only [hdm, Bool.false_eq_true, false_and, if_false]
      rw [List.map_flatMap, hreal, hdbl]
      simp only [List.map_map]
      rfl
    rw [hgoal]
    by_cases he : f.massive (fun w => decide (env.real8 w = 0)) = []
    · rw [he] at hat ⊢
      simp only [List.isEmpty_nil, if_true, List.nil_append] at hat
      have hsp := spreadMass_ok env f (fun p => blockReal env rs p.mass) htot (List.finRange 6) [] []
        (by rw [← massive_eq f (fun w => decide (env.real8 w = 0)), he]; rfl)
      rw [List.length_nil] at hsp
      simp only [List.length_nil, ne_eq, not_true_eq_false, if_false, Outcome.bind_ok, hsp]
      exact ⟨_, rfl, fun _ => hat⟩
    · have hne : (f.massive fun w => decide (env.real8 w = 0)).length ≠ 0 := by
        rwa [ne_eq, List.length_eq_zero_iff]
      rw [if_neg (by simpa using he)] at hat
      obtain ⟨d, fl', e, hm, hat⟩ := readScalars fe env.le rs _ RawParticle.mass hszm hsmall
        (f.massive fun w => decide (env.real8 w = 0)).length 0 (by omega) c rest fl hat
      rw [if_pos hne, e, Outcome.bind_ok]
      simp only [Outcome.bind_ok]
      rw [hm, List.drop_zero, List.take_length, List.map_map]
      have hsp := spreadMass_ok env f (fun p => blockReal env rs p.mass) htot (List.finRange 6) []
        ((f.massive fun w => decide (env.real8 w = 0)).map (fun p => blockReal env rs p.mass))
        (by rw [← massive_eq f (fun w => decide (env.real8 w = 0))]; rfl)
      rw [List.length_nil] at hsp
      refine ⟨fl', ?_, fun _ => hat⟩
      simp only [Function.comp_def]
      rw [hsp, Outcome.bind_ok]
  · -- dark matter only
    rw [hd] at hdm
    simp only [if_true, Bool.true_eq_false, false_imp_iff, and_true]
    have hfr : (List.finRange 6) = [0, 1, 2, 3, 4, 5] := by decide
    have hw : R.wanted f = (f.parts 1).map fun p => ((1 : Fin 6), p) := by
      unfold Reading.wanted
      simp [hfr, hdm]
    rw [hw, List.map_map, List.length_map, hreal, hdbl]
    by_cases hp : massDataPresent (headerOf env.real8 env.le f) 1 = true
    · rw [if_pos hp]
      have hp' := hp
      unfold massDataPresent headerOf at hp'
      simp only [Bool.and_eq_true, decide_eq_true_eq] at hp'
      have hne := hdmmass hd hp'.1 hp'.2
      rw [if_neg (by simpa using hne)] at hat
      have hoff : (if massDataPresent (headerOf env.real8 env.le f) 0 = true then (f.parts 0).length else 0) =
          (if env.real8 (f.header.masses 0) = 0 then f.parts 0 else []).length := by
        by_cases h0 : f.parts 0 = []
        · simp [h0]
        · rw [mass_present env f 0 (htot 0) h0]
          split <;> simp_all
      have hm6 : f.massive (fun w => decide (env.real8 w = 0)) =
          (if env.real8 (f.header.masses 0) = 0 then f.parts 0 else []) ++ (f.parts 1 ++
            [2, 3, 4, 5].flatMap (fun t : Fin 6 => if env.real8 (f.header.masses t) = 0 then f.parts t else [])) := by
        rw [massive_eq, hfr]
        simp [hp'.1]
      obtain ⟨d, fl', e, hm, hat⟩ := readScalars fe env.le rs _ RawParticle.mass hszm hsmall
        (f.parts 1).length (if env.real8 (f.header.masses 0) = 0 then f.parts 0 else []).length
        (by rw [hm6]; simp) c rest fl hat
      rw [hoff, e, Outcome.bind_ok]
      refine ⟨fl', ?_⟩
      simp only
      rw [hm, hm6, List.drop_left, List.take_left, List.map_map]
      congr 2
      apply List.map_congr_left
      intro p _
      simp [hp'.1]
    · rw [if_neg hp]
      refine ⟨fl, ?_⟩
      congr 2
      by_cases h1 : f.parts 1 = []
      · simp [h1]
      · rw [mass_present env f 1 (htot 1) h1] at hp
        simp only [decide_eq_true_eq] at hp
        simp [hp, headerOf, Function.comp_def, List.map_const']

end HBT.GS
