import Verif.Lemmas.GadgetBody
import Verif.Props.MyMath
/-!
# Lemmas on the Gadget snapshot reader: whole files and the snapshot
-/
namespace HBT.GS
open HBT HBT.Model HBT.Spec HBT.Props

set_option linter.unusedSectionVars false
variable {K : Type} [Field K] [LinearOrder K] [IsStrictOrderedRing K] [FloorRing K]

/-- What the program should make of a snapshot with reals of `s` bytes and scale factor `scale`. -/
def readingOf (env : GadgetEnv K) (s : Nat) (scale : K) : Reading K where
  real := if s = 4 then env.real4 else env.real8
  dbl := env.real8
  place x := if env.periodic = true then positionModulus x env.boxSize else x
  velScale := env.sqrt scale
  hasId := env.hasId
  dmOnly := env.dmOnly
  thermal := env.thermal

theorem mem_all (f : RawFile) (p : RawParticle) : p ∈ f.all ↔ ∃ t, p ∈ f.parts t := by
  rw [all_eq, List.mem_flatMap]
  simp

theorem parts_le (f : RawFile) (t : Fin 6) : (f.parts t).length ≤ f.all.length := by
  have hfr : (List.finRange 6) = [0, 1, 2, 3, 4, 5] := by decide
  rw [all_eq, hfr]
  simp only [List.flatMap_cons, List.flatMap_nil, List.length_append, List.length_nil]
  match t with
  | 0 => omega
  | 1 => omega
  | 2 => omega
  | 3 => omega
  | 4 => omega
  | 5 => omega

theorem massive_le (f : RawFile) (noMass : List Byte → Bool) : (f.massive noMass).length ≤ f.all.length := by
  have hfr : (List.finRange 6) = [0, 1, 2, 3, 4, 5] := by decide
  have hle : ∀ t, (if noMass (f.header.masses t) then f.parts t else []).length ≤ (f.parts t).length := by
    intro t; split <;> simp
  rw [massive_eq, all_eq, hfr]
  simp only [List.flatMap_cons, List.flatMap_nil, List.length_append, List.length_nil]
  have h0 := hle 0
  have h1 := hle 1
  have h2 := hle 2
  have h3 := hle 3
  have h4 := hle 4
  have h5 := hle 5
  omega

/-- The bytes of the file after the header. -/
def bodyBytes (fe le : Bool) (isz : Nat) (hasId : Bool) (noMass : List Byte → Bool) (f : RawFile) : List Byte :=
  record fe (f.all.flatMap fun p => (List.ofFn p.pos).flatMap (inOrder fe le)) ++
  (record fe (f.all.flatMap fun p => (List.ofFn p.vel).flatMap (inOrder fe le)) ++
  ((if hasId then record fe (f.all.flatMap fun p => intBytes fe isz p.id) else []) ++
  ((if (f.massive noMass).isEmpty then []
    else record fe ((f.massive noMass).flatMap fun p => inOrder fe le p.mass)) ++
  ((if (f.parts 0).isEmpty then [] else record fe ((f.parts 0).flatMap fun p => inOrder fe le p.energy)) ++
  f.rest))))

theorem gadgetBytes_eq (fe le : Bool) (isz : Nat) (hasId : Bool) (noMass : List Byte → Bool) (f : RawFile) :
    gadgetBytes fe le isz hasId noMass f =
      record fe (headerBytes fe le f) ++ bodyBytes fe le isz hasId noMass f := by
  unfold gadgetBytes bodyBytes
  simp only [List.append_assoc]

variable {env : GadgetEnv K} {fe : Bool} {s isz n : Nat} {scale : K} {f : RawFile}

theorem small_parts {R : Reading K} (hs : s = 4 ∨ s = 8) (hf : f.Acceptable R env.idUnsigned env.intBytes s isz n) (t : Fin 6) :
    (f.parts t).length < 2 ^ 31 := by
  have h1 := parts_le f t
  have h2 := hf.small
  rcases hs with rfl | rfl <;> omega

theorem partCounts_ok (f : RawFile) : partCounts (headerOf env.real8 env.le f) =
    .ok (fun t => (f.parts t).length) := by
  unfold partCounts headerOf
  rw [if_pos (by intro t; simp)]
  simp

/-- The header of an acceptable file is read back. -/
theorem header_ok' {R : Reading K} (hs : s = 4 ∨ s = 8) (hn : n < 2 ^ 31)
    (hf : f.Acceptable R env.idUnsigned env.intBytes s isz n) (noMass : List Byte → Bool)
    (c : List Byte) (hc : c = gadgetBytes fe env.le isz env.hasId noMass f) :
    ∃ fl, readGadgetHeader env c = .ok (fe != env.le, headerOf env.real8 env.le f, fl) ∧
      At c fl (bodyBytes fe env.le isz env.hasId noMass f) :=
  readGadgetHeader_ok env fe f hf.header (small_parts hs hf) (by rw [hf.numFiles]; exact hn) c _
    (by rw [hc, gadgetBytes_eq])

theorem header_ok (hs : s = 4 ∨ s = 8) (hn : n < 2 ^ 31)
    (hf : f.Acceptable (readingOf env s scale) env.idUnsigned env.intBytes s isz n) (noMass : List Byte → Bool)
    (c : List Byte) (hc : c = gadgetBytes fe env.le isz env.hasId noMass f) :
    ∃ fl, readGadgetHeader env c = .ok (fe != env.le, headerOf env.real8 env.le f, fl) ∧
      At c fl (bodyBytes fe env.le isz env.hasId noMass f) :=
  readGadgetHeader_ok env fe f hf.header (small_parts hs hf) (by rw [hf.numFiles]; exact hn) c _
    (by rw [hc, gadgetBytes_eq])

theorem readIds_ok (R : Reading K) (hid : R.hasId = env.hasId) (hdm : R.dmOnly = env.dmOnly)
    (hstyle : env.hasId = true → env.idRankStyle = false)
    (hi : env.hasId = true → (isz = 4 ∨ isz = 8) ∧ isz ≤ env.intBytes)
    (hb : env.intBytes = 4 ∨ env.intBytes = 8)
    (hids : env.hasId = true → ∀ p ∈ f.all, IdFits env.idUnsigned isz env.intBytes p.id)
    (hsmall : env.hasId = true → f.all.length * isz < 2 ^ 31)
    (info : GadgetInfo K) (hisz : env.hasId = true → info.intSize = isz) (iFile first : Nat)
    (hoff : info.offsets[iFile]? = some first)
    (c rest : List Byte) (fl : File)
    (hat : At c fl ((if env.hasId then record fe (f.all.flatMap fun p => intBytes fe isz p.id) else []) ++ rest)) :
    ∃ fl', readGadgetIds env info iFile (R.wanted f).length (if R.dmOnly then (f.parts 0).length else 0) fl
        (fe != env.le) = .ok ((R.wanted f).mapIdx (fun i tp =>
          if R.hasId then tp.2.id else ((first : Int) + i)), fl') ∧ At c fl' rest := by
  unfold readGadgetIds
  cases h : env.hasId
  · rw [h] at hat hid
    have hget : Outcome.get info.offsets iFile = .ok first := by
      unfold Outcome.get
      rw [hoff]
    simp only [Bool.false_eq_true, if_false] at hat ⊢
    refine ⟨fl, ?_, hat⟩
    rw [hget, Outcome.bind_ok, hid]
    simp only [Bool.false_eq_true, if_false]
    congr 2
    apply List.ext_getElem
    · simp
    · intro i h1 h2
      simp
  · rw [h] at hid hi hids hsmall hstyle hisz
    simp only [forall_const] at hi hids hsmall hstyle hisz
    rw [h] at hat
    simp only [if_true] at hat
    rw [if_pos rfl, if_neg (by rw [hstyle]; decide), hisz]
    obtain ⟨d, fl', e, hm, hat⟩ := readScalars fe env.le isz f.all (fun p => intBytes env.le isz p.id)
      (fun p _ => intBytes_length _ _ _) hsmall (R.wanted f).length
      (if R.dmOnly then (f.parts 0).length else 0) (by
        have := wanted_skip R f
        rw [← wanted_length] at this
        exact this) c rest fl (by simpa only [intBytes_inOrder] using hat)
    refine ⟨fl', ?_, hat⟩
    rw [e, Outcome.bind_ok]
    simp only
    rw [hm]
    have hsl := wanted_slice R f
    rw [← wanted_length] at hsl
    rw [hsl, hid]
    congr 2
    apply List.ext_getElem
    · simp
    · intro i h1 h2
      simp only [List.getElem_map, if_true, List.getElem_mapIdx]
      apply memberId_ok env isz _ hi.1 hb hi.2
      apply hids
      have hi2 : i < (R.wanted f).length := by simpa using h2
      have : ((R.wanted f)[i]).2 ∈ (R.wanted f).map Prod.snd :=
        List.mem_map_of_mem (List.getElem_mem hi2)
      rw [← hsl] at this
      exact List.mem_of_mem_drop (List.mem_of_mem_take this)

/-- A file of the snapshot is read as it should, up to the masses. -/
theorem readGadgetFile_front (hs : s = 4 ∨ s = 8)
    (hi : env.hasId = true → (isz = 4 ∨ isz = 8) ∧ isz ≤ env.intBytes)
    (hb : env.intBytes = 4 ∨ env.intBytes = 8) (hstyle : env.hasId = true → env.idRankStyle = false)
    (hn : n < 2 ^ 31) (R : Reading K) (hR : R = readingOf env s scale)
    (hf : f.Acceptable R env.idUnsigned env.intBytes s isz n)
    (info : GadgetInfo K) (hsw : info.swap = (fe != env.le)) (hrs : info.realSize = s)
    (hisz : env.hasId = true → info.intSize = isz) (hsc : info.header.scaleFactor = scale)
    (files : List (List Byte)) (iFile first : Nat) (hoff : info.offsets[iFile]? = some first) (c : List Byte)
    (hc : c = gadgetBytes fe env.le isz env.hasId (fun w => decide (env.real8 w = 0)) f)
    (hfile : files[iFile]? = some c) :
    ∃ fl, readGadgetFile env info files iFile = (do
        let (mass, f1) ← readMass env s (headerOf env.real8 env.le f) (fun t => (f.parts t).length)
          (R.wanted f).length (if R.dmOnly then (f.parts 0).length else 0) fl (fe != env.le)
        let (energy, _) ← readEnergy env s (fun t => (f.parts t).length) (R.wanted f).length f1 (fe != env.le)
        .ok (gadgetAssemble ((R.wanted f).map fun tp j => R.place (R.real (tp.2.pos j)))
          ((R.wanted f).map fun tp j => R.real (tp.2.vel j) * R.velScale)
          ((R.wanted f).mapIdx fun i tp => if R.hasId then tp.2.id else (first : Int) + i) mass
          ((R.wanted f).map fun tp => if R.dmOnly then none else some tp.1.val) energy)) ∧
      At c fl ((if (f.massive fun w => decide (env.real8 w = 0)).isEmpty then []
        else record fe ((f.massive fun w => decide (env.real8 w = 0)).flatMap fun p => inOrder fe env.le p.mass)) ++
        ((if (f.parts 0).isEmpty then []
          else record fe ((f.parts 0).flatMap fun p => inOrder fe env.le p.energy)) ++ f.rest)) := by
  have hRdm : R.dmOnly = env.dmOnly := by rw [hR]; rfl
  have hRid : R.hasId = env.hasId := by rw [hR]; rfl
  have hRreal : R.real = blockReal env s := by rw [hR]; rfl
  rw [hR] at hf
  obtain ⟨fl0, e0, hat⟩ := header_ok (fe := fe) hs hn hf (fun w => decide (env.real8 w = 0)) _ rfl
  rw [← hR] at hf
  rw [← hc] at hat e0
  unfold bodyBytes at hat
  have hsz : ∀ p ∈ f.all, p.WellSized s := by
    intro p hp
    rw [mem_all] at hp
    obtain ⟨t, hp⟩ := hp
    exact hf.parts t p hp
  have hsmall := hf.small
  have hskip := wanted_skip R f
  have hslice := wanted_slice R f
  have hlen : (if R.dmOnly = true then (f.parts 1).length else f.all.length) = (R.wanted f).length :=
    (wanted_length R f).symm
  rw [hlen] at hskip hslice
  obtain ⟨fl1, e1, hat⟩ := readXYZ_ok env fe s f RawParticle.pos (fun p hp j => (hsz p hp).1 j) hsmall
    (R.wanted f).length _ hskip c _ fl0 hat
  obtain ⟨fl2, e2, hat⟩ := readXYZ_ok env fe s f RawParticle.vel (fun p hp j => (hsz p hp).2.1 j) hsmall
    (R.wanted f).length _ hskip c _ fl1 hat
  obtain ⟨fl3, e3, hat⟩ := readIds_ok (env := env) R hRid hRdm hstyle hi hb (by rw [← hRid]; exact hf.ids)
    (fun h => by
      have := (hi h).1
      have hle : f.all.length * isz ≤ f.all.length * 3 * s := by
        rw [Nat.mul_assoc]
        apply Nat.mul_le_mul_left
        omega
      omega) info hisz iFile first hoff c _ fl2 hat
  have hopen : openGadget files iFile = .ok c := by
    unfold openGadget
    rw [hfile]
  refine ⟨fl3, ?_, hat⟩
  unfold readGadgetFile
  rw [hopen, Outcome.bind_ok, e0, Outcome.bind_ok]
  simp only
  rw [partCounts_ok, Outcome.bind_ok]
  simp only
  rw [sumTypes_all, ← hRdm, hlen, hrs, hsw, e1, Outcome.bind_ok]
  simp only
  rw [e2, Outcome.bind_ok]
  simp only
  rw [e3, Outcome.bind_ok]
  simp only
  rw [gadgetTypes_eq env R hRdm f, hslice, hsc]
  have hpos : (if env.periodic = true then
        (((R.wanted f).map Prod.snd).map (fun p j => blockReal env s (p.pos j))).map
          (fun (x : Fin 3 → K) (j : Fin 3) => positionModulus (x j) env.boxSize)
      else ((R.wanted f).map Prod.snd).map (fun p j => blockReal env s (p.pos j))) =
      (R.wanted f).map (fun tp j => R.place (R.real (tp.2.pos j))) := by
    rw [hRreal, hR]
    cases hp : env.periodic <;> simp [readingOf, hp, Function.comp_def]
  have hvel : (((R.wanted f).map Prod.snd).map (fun p j => blockReal env s (p.vel j))).map
      (fun (v : Fin 3 → K) (j : Fin 3) => v j * env.sqrt scale) =
      (R.wanted f).map (fun tp j => R.real (tp.2.vel j) * R.velScale) := by
    rw [hRreal, hR]
    simp [readingOf, Function.comp_def]
  rw [hpos, hvel]

/-- A file of the snapshot is read as it should. -/
theorem readGadgetFile_ok (hs : s = 4 ∨ s = 8)
    (hi : env.hasId = true → (isz = 4 ∨ isz = 8) ∧ isz ≤ env.intBytes)
    (hb : env.intBytes = 4 ∨ env.intBytes = 8) (hstyle : env.hasId = true → env.idRankStyle = false)
    (hn : n < 2 ^ 31) (R : Reading K) (hR : R = readingOf env s scale)
    (hf : f.Acceptable R env.idUnsigned env.intBytes s isz n) (hcomp : f.Complete R)
    (info : GadgetInfo K) (hsw : info.swap = (fe != env.le)) (hrs : info.realSize = s)
    (hisz : env.hasId = true → info.intSize = isz) (hsc : info.header.scaleFactor = scale)
    (files : List (List Byte)) (iFile first : Nat) (hoff : info.offsets[iFile]? = some first)
    (hfile : files[iFile]? = some (gadgetBytes fe env.le isz env.hasId (fun w => decide (env.real8 w = 0)) f)) :
    readGadgetFile env info files iFile = .ok ((R.wanted f).mapIdx fun i tp =>
      R.particle f.header tp.1 tp.2 ((first : Int) + i)) := by
  have hRdm : R.dmOnly = env.dmOnly := by rw [hR]; rfl
  have hRth : R.thermal = env.thermal := by rw [hR]; rfl
  have hRdbl : R.dbl = env.real8 := by rw [hR]; rfl
  have hRreal : R.real = blockReal env s := by rw [hR]; rfl
  have hsmall := hf.small
  obtain ⟨fl3, e, hat⟩ := readGadgetFile_front hs hi hb hstyle hn R hR hf info hsw hrs hisz hsc files iFile
    first hoff _ rfl hfile
  rw [e]
  obtain ⟨fl4, e4, hat⟩ := readMass_ok env R fe s f hRreal hRdbl hRdm
    (fun t p hp => (hf.parts t p hp).2.2.1) hcomp.totals
    (by
      have := massive_le f (fun w => decide (env.real8 w = 0))
      have hle := Nat.mul_le_mul_right s this
      rcases hs with rfl | rfl <;> omega)
    (by
      have := hcomp.dmMass
      rw [hRdm, hRdbl] at this
      exact this) (if R.dmOnly then (f.parts 0).length else 0)
    (by intro h; rw [hRdm, h]; rfl) _ _ fl3 hat
  have hE : ∃ fl5, readEnergy env s (fun t => (f.parts t).length) (R.wanted f).length fl4 (fe != env.le) =
      .ok ((R.wanted f).map (fun tp =>
      if R.dmOnly = false ∧ R.thermal = true ∧ tp.1 = 0 then some (R.real tp.2.energy) else none), fl5) := by
    by_cases hth : env.dmOnly = false ∧ env.thermal = true
    · have hat := hat hth.1
      have hgas := hcomp.gas (by rw [hRdm]; exact hth.1) (by rw [hRth]; exact hth.2)
      rw [if_neg (by simpa using hgas)] at hat
      obtain ⟨d, fl5, e5, hm, _⟩ := readScalars fe env.le s (f.parts 0) RawParticle.energy
        (fun p hp => (hf.parts 0 p hp).2.2.2)
        (by
          have := parts_le f 0
          rcases hs with rfl | rfl <;> omega) (f.parts 0).length 0 (by omega) _ _ fl4 hat
      refine ⟨fl5, ?_⟩
      unfold readEnergy
      rw [if_pos hth, e5, Outcome.bind_ok]
      simp only
      rw [hm, List.drop_zero, List.take_length, List.map_map, ← energy_list R (by rw [hRdm]; exact hth.1)
        (by rw [hRth]; exact hth.2) f, hRreal]
      rfl
    · exact ⟨fl4, readEnergy_other env R hRdm hRth hth s f _ fl4 _⟩
  obtain ⟨fl5, e5⟩ := hE
  rw [e4, Outcome.bind_ok]
  simp only
  rw [e5, Outcome.bind_ok]
  simp only
  rw [assemble_map]
  rfl

/-! ## The snapshot -/

/-- Numbers of the first particles of the files. -/
def firsts (R : Reading K) : Nat → List RawFile → List Nat
  | _, [] => []
  | n, f :: fs => n :: firsts R (n + (R.wanted f).length) fs

theorem firsts_length (R : Reading K) (n : Nat) (fs : List RawFile) : (firsts R n fs).length = fs.length := by
  induction fs generalizing n with
  | nil => rfl
  | cons f fs ih => simp [firsts, ih]

theorem files_length (R : Reading K) (n : Int) (fs : List RawFile) : (R.files n fs).length = fs.length := by
  induction fs generalizing n with
  | nil => rfl
  | cons f fs ih => simp [Reading.files, ih]

theorem files_get (R : Reading K) (n : Nat) (fs : List RawFile) (i : Nat) (f : RawFile) (hf : fs[i]? = some f) :
    ∃ first, (firsts R n fs)[i]? = some first ∧
      (R.files n fs)[i]? = some ((R.wanted f).mapIdx fun k tp => R.particle f.header tp.1 tp.2 ((first : Int) + k)) := by
  induction fs generalizing n i with
  | nil => simp at hf
  | cons g fs ih =>
    cases i with
    | zero =>
      simp only [List.getElem?_cons_zero, Option.some.injEq] at hf
      subst hf
      exact ⟨n, by simp [firsts], by simp [Reading.files]⟩
    | succ i =>
      simp only [List.getElem?_cons_succ] at hf
      obtain ⟨first, h1, h2⟩ := ih (n + (R.wanted g).length) i hf
      refine ⟨first, by simpa [firsts] using h1, ?_⟩
      simp only [Reading.files, List.getElem?_cons_succ]
      rw [← h2]
      push_cast
      rfl

theorem offsets_ok (hs : s = 4 ∨ s = 8) (hn : n < 2 ^ 31) (rfs : List RawFile)
    (hall : ∀ f ∈ rfs, f.Acceptable (readingOf env s scale) env.idUnsigned env.intBytes s isz n)
    (done rest : List RawFile) (hsplit : rfs = done ++ rest) (np : Nat) :
    gadgetOffsets env (rfs.map (gadgetBytes fe env.le isz env.hasId (fun w => decide (env.real8 w = 0))))
      rest.length done.length np = .ok (firsts (readingOf env s scale) np rest) := by
  induction rest generalizing done np with
  | nil => rfl
  | cons f rest ih =>
    have hmem : f ∈ rfs := by rw [hsplit]; simp
    obtain ⟨fl, e, _⟩ := header_ok (fe := fe) hs hn (hall f hmem) (fun w => decide (env.real8 w = 0)) _ rfl
    have hget : openGadget (rfs.map (gadgetBytes fe env.le isz env.hasId (fun w => decide (env.real8 w = 0))))
        done.length = .ok (gadgetBytes fe env.le isz env.hasId (fun w => decide (env.real8 w = 0)) f) := by
      unfold openGadget
      rw [hsplit]
      simp
    have hnum : readGadgetNumber env
        (rfs.map (gadgetBytes fe env.le isz env.hasId (fun w => decide (env.real8 w = 0)))) done.length =
        .ok ((readingOf env s scale).wanted f).length := by
      unfold readGadgetNumber
      rw [hget, Outcome.bind_ok, e, Outcome.bind_ok]
      simp only
      rw [partCounts_ok, Outcome.bind_ok, sumTypes_all, wanted_length]
      rfl
    have := ih (done ++ [f]) (by rw [hsplit]; simp) (np + ((readingOf env s scale).wanted f).length)
    rw [List.length_append, List.length_singleton] at this
    rw [List.length_cons, gadgetOffsets, hnum, Outcome.bind_ok, this, Outcome.bind_ok]
    rfl

theorem loadGadgetHeader_front (hs : s = 4 ∨ s = 8)
    (hi : env.hasId = true → (isz = 4 ∨ isz = 8) ∧ isz ≤ env.intBytes)
    (f0 : RawFile) (more : List (List Byte)) (hn : n < 2 ^ 31) {R : Reading K}
    (hf0 : f0.Acceptable R env.idUnsigned env.intBytes s isz n)
    (hne : f0.all ≠ []) (hbox : env.real8 f0.header.boxSize = env.boxSize) (noMass : List Byte → Bool) :
    ∃ k, (env.hasId = true → k = isz) ∧
      loadGadgetHeader env (gadgetBytes fe env.le isz env.hasId noMass f0 :: more) = (do
        let offsets ← gadgetOffsets env (gadgetBytes fe env.le isz env.hasId noMass f0 :: more) n 0 0
        .ok ⟨headerOf env.real8 env.le f0, fe != env.le, s, k, offsets⟩) := by
  obtain ⟨fl, e, hat⟩ := header_ok' (fe := fe) hs hn hf0 noMass _ rfl
  obtain ⟨L, hL⟩ : ∃ L, L = gadgetBytes fe env.le isz env.hasId noMass f0 :: more := ⟨_, rfl⟩
  have hget : openGadget L 0 = .ok (gadgetBytes fe env.le isz env.hasId noMass f0) := by
    rw [hL]; rfl
  rw [← hL]
  have hnum : 0 < f0.all.length := List.length_pos_iff.mpr hne
  have hsmall := hf0.small
  have hsz : ∀ p ∈ f0.all, p.WellSized s := by
    intro p hp
    rw [mem_all] at hp
    obtain ⟨t, hp⟩ := hp
    exact hf0.parts t p hp
  have hlen : ∀ attr : RawParticle → Fin 3 → List Byte, (∀ p ∈ f0.all, ∀ j, (attr p j).length = s) →
      (f0.all.flatMap fun p => (List.ofFn (attr p)).flatMap (inOrder fe env.le)).length =
        f0.all.length * 3 * s := by
    intro attr ha
    have : f0.all.flatMap (fun p => (List.ofFn (attr p)).flatMap (inOrder fe env.le)) =
        ((f0.all.flatMap fun p => List.ofFn (attr p)).map (inOrder fe env.le)).flatten := by
      simp only [List.flatMap_def, List.map_flatten, List.map_map, List.flatten_flatten]; rfl
    rw [this, flatten_length s]
    · rw [List.length_map, List.length_flatMap]
      simp [List.map_const']
    · intro w hw
      rw [List.mem_map] at hw
      obtain ⟨v, hv, rfl⟩ := hw
      rw [inOrder_length]
      rw [List.mem_flatMap] at hv
      obtain ⟨p, hp, hv⟩ := hv
      rw [List.mem_ofFn] at hv
      obtain ⟨j, rfl⟩ := hv
      exact ha p hp j
  have hlp := hlen RawParticle.pos (fun p hp j => (hsz p hp).1 j)
  have hlv := hlen RawParticle.vel (fun p hp j => (hsz p hp).2.1 j)
  unfold bodyBytes at hat
  obtain ⟨fl1, e1, hat⟩ := skip_record fe env.le _ (by rw [hlp]; exact hsmall) _ _ _ hat
  obtain ⟨fl2, e2, hat⟩ := skip_record fe env.le _ (by rw [hlv]; exact hsmall) _ _ _ hat
  rw [hlp] at e1
  rw [hlv] at e2
  have hk : ∃ k, (env.hasId = true → k = isz) ∧ loadIdSize env f0.all.length fl2 (fe != env.le) = .ok k := by
    unfold loadIdSize
    cases hid : env.hasId
    · exact ⟨0, by simp, by simp⟩
    · rw [hid] at hat
      simp only [if_true] at hat
      have hi' := hi hid
      have hli : (f0.all.flatMap fun p => intBytes fe isz p.id).length = f0.all.length * isz := by
        rw [List.length_flatMap]
        simp [intBytes_length, List.map_const']
      obtain ⟨fl3, e3, _⟩ := skip_record fe env.le _ (by
        rw [hli]
        have hle : f0.all.length * isz ≤ f0.all.length * 3 * s := by
          rw [Nat.mul_assoc]
          apply Nat.mul_le_mul_left
          omega
        omega) _ _ _ hat
      refine ⟨isz, fun _ => rfl, ?_⟩
      rw [if_pos rfl, e3, Outcome.bind_ok, hli]
      have hdiv : ((f0.all.length * isz : Nat) : Int).tdiv (f0.all.length : Int) = isz := by
        rw [← Int.ofNat_tdiv, Nat.mul_div_cancel_left _ hnum]
      simp only [hdiv]
      rw [if_pos ⟨by omega, by omega⟩]
      simp
  obtain ⟨k, hk, ek⟩ := hk
  refine ⟨k, hk, ?_⟩
  have hdiv : (((f0.all.length * 3 * s : Nat) : Int).tdiv (f0.all.length : Int)).tdiv 3 = s := by
    rw [← Int.ofNat_tdiv, Nat.mul_assoc, Nat.mul_div_cancel_left _ hnum]
    have : (3 : Int) = ((3 : Nat) : Int) := rfl
    rw [this, ← Int.ofNat_tdiv, Nat.mul_div_cancel_left _ (by omega)]
  have hnf : (headerOf env.real8 env.le f0).numFiles.toNat = n := by
    unfold headerOf
    simp only [Int.toNat_natCast]
    exact hf0.numFiles
  unfold loadGadgetHeader
  rw [hget, Outcome.bind_ok, e, Outcome.bind_ok]
  simp only
  rw [if_neg (by unfold headerOf; simpa using hbox), partCounts_ok, Outcome.bind_ok, sumTypes_all, e1, Outcome.bind_ok]
  simp only [hdiv]
  rw [if_neg (by omega), if_pos (by omega), e2, Outcome.bind_ok]
  simp only
  rw [if_neg (by push_cast; simp only [ne_eq, not_not]; rw [Int.mul_comm (_ * 3), ← Int.mul_assoc]), ek,
    Outcome.bind_ok, hnf]
  simp

theorem loadGadgetHeader_ok (hs : s = 4 ∨ s = 8)
    (hi : env.hasId = true → (isz = 4 ∨ isz = 8) ∧ isz ≤ env.intBytes)
    (f0 : RawFile) (rfs : List RawFile) (hn : (f0 :: rfs).length < 2 ^ 31)
    (hall : ∀ f ∈ f0 :: rfs, f.Acceptable (readingOf env s (env.real8 f0.header.scaleFactor)) env.idUnsigned
      env.intBytes s isz (f0 :: rfs).length)
    (hne : f0.all ≠ []) (hbox : env.real8 f0.header.boxSize = env.boxSize) :
    ∃ k, (env.hasId = true → k = isz) ∧ loadGadgetHeader env ((f0 :: rfs).map (gadgetBytes fe env.le isz env.hasId (fun w => decide (env.real8 w = 0))))
      = .ok ⟨headerOf env.real8 env.le f0, fe != env.le, s, k,
          firsts (readingOf env s (env.real8 f0.header.scaleFactor)) 0 (f0 :: rfs)⟩ := by
  have hoffs := offsets_ok (fe := fe) hs hn (f0 :: rfs) hall [] (f0 :: rfs) rfl 0
  rw [List.length_nil] at hoffs
  obtain ⟨k, hk, e⟩ := loadGadgetHeader_front (fe := fe) hs hi f0
    (rfs.map (gadgetBytes fe env.le isz env.hasId (fun w => decide (env.real8 w = 0)))) hn (hall f0 (by simp))
    hne hbox (fun w => decide (env.real8 w = 0))
  refine ⟨k, hk, ?_⟩
  rw [List.map_cons] at hoffs ⊢
  rw [e, hoffs, Outcome.bind_ok]

theorem offsets_missing (hs : s = 4 ∨ s = 8) (hn : n < 2 ^ 31) (rfs : List RawFile) {R : Reading K}
    (hall : ∀ f ∈ rfs, f.Acceptable R env.idUnsigned env.intBytes s isz n) (noMass : List Byte → Bool)
    (done rest : List RawFile) (hsplit : rfs = done ++ rest) (m np : Nat) (hm : rest.length < m) :
    gadgetOffsets env (rfs.map (gadgetBytes fe env.le isz env.hasId noMass)) m done.length np = .abort := by
  induction rest generalizing done np m with
  | nil =>
    obtain ⟨m, rfl⟩ : ∃ k, m = k + 1 := ⟨m - 1, by simp at hm; omega⟩
    rw [gadgetOffsets]
    unfold readGadgetNumber openGadget
    rw [List.getElem?_eq_none (by rw [hsplit]; simp)]
    rfl
  | cons f rest ih =>
    obtain ⟨m, rfl⟩ : ∃ k, m = k + 1 := ⟨m - 1, by simp at hm; omega⟩
    have hmem : f ∈ rfs := by rw [hsplit]; simp
    obtain ⟨fl, e, _⟩ := header_ok' (fe := fe) hs hn (hall f hmem) noMass _ rfl
    have hget : openGadget (rfs.map (gadgetBytes fe env.le isz env.hasId noMass))
        done.length = .ok (gadgetBytes fe env.le isz env.hasId noMass f) := by
      unfold openGadget
      rw [hsplit]
      simp
    have hnum : ∃ k, readGadgetNumber env
        (rfs.map (gadgetBytes fe env.le isz env.hasId noMass)) done.length = .ok k := by
      unfold readGadgetNumber
      rw [hget, Outcome.bind_ok, e, Outcome.bind_ok]
      simp only
      rw [partCounts_ok, Outcome.bind_ok]
      exact ⟨_, rfl⟩
    obtain ⟨k, hk⟩ := hnum
    have := ih (done ++ [f]) (by rw [hsplit]; simp) m (np + k) (by simpa using hm)
    rw [List.length_append, List.length_singleton] at this
    rw [gadgetOffsets, hk, Outcome.bind_ok, this]
    rfl

theorem spreadMass_absent (h : GadgetHeader K) (np : Fin 6 → Nat) (block : List K)
    (habs : ∀ t, massDataPresent h t = false) (ts : List (Fin 6)) (off : Nat) :
    spreadMass h np block ts off = .ok (ts.flatMap fun t => List.replicate (np t) (h.mass t)) := by
  induction ts generalizing off with
  | nil => rfl
  | cons t ts ih =>
    rw [spreadMass, habs t, if_neg (by decide), ih, Outcome.bind_ok, List.flatMap_cons]

theorem readGadgetFiles_ok (L : List (List (SnapParticle K))) (info : GadgetInfo K) (files : List (List Byte))
    (h : ∀ i x, L[i]? = some x → readGadgetFile env info files i = .ok x) (k i : Nat) (hk : i + k ≤ L.length) :
    readGadgetFiles env info files k i = .ok ((L.drop i).take k).flatten := by
  induction k generalizing i with
  | zero => simp [readGadgetFiles]
  | succ k ih =>
    have hi : i < L.length := by omega
    rw [readGadgetFiles, h i _ (List.getElem?_eq_getElem hi), Outcome.bind_ok, ih (i + 1) (by omega),
      Outcome.bind_ok]
    conv_rhs => rw [List.drop_eq_getElem_cons hi]
    rw [List.take_succ_cons, List.flatten_cons]

/-- Consecutive segments put together. -/
theorem flatten_segments {α : Type} (L : List (List α)) (P : Nat) (b e : Fin P → Nat)
    (hb : ∀ r : Fin P, b r + (e r - b r) ≤ L.length)
    (h0 : ∀ r : Fin P, r.val = 0 → b r = 0)
    (hnext : ∀ r r' : Fin P, r'.val = r.val + 1 → b r' = e r)
    (hbe : ∀ r, b r ≤ e r)
    (hend : ∀ r : Fin P, r.val + 1 = P → e r = L.length) (hP : 0 < P) :
    (List.ofFn fun r => ((L.drop (b r)).take (e r - b r)).flatten).flatten = L.flatten := by
  have key : ∀ m, (hm : m < P) → ((List.ofFn fun r => ((L.drop (b r)).take (e r - b r)).flatten).take (m + 1)).flatten
      = (L.take (e ⟨m, hm⟩)).flatten := by
    intro m
    induction m with
    | zero =>
      intro hm
      rw [List.take_succ_eq_append_getElem (by simpa using hm)]
      simp only [List.getElem_ofFn]
      rw [h0 ⟨0, hm⟩ rfl]
      simp
    | succ m ih =>
      intro hm
      rw [List.take_succ_eq_append_getElem (by simpa using hm), List.flatten_append, ih (by omega)]
      simp only [List.getElem_ofFn, List.flatten_cons, List.flatten_nil, List.append_nil]
      have h1 := hnext ⟨m, by omega⟩ ⟨m + 1, hm⟩ rfl
      have h2 := hbe ⟨m + 1, hm⟩
      rw [h1] at h2 ⊢
      rw [← List.flatten_append, ← List.take_add]
      congr 2
      omega
  have h := key (P - 1) (by omega)
  rw [List.take_of_length_le (by rw [List.length_ofFn]; omega), hend ⟨P - 1, by omega⟩ (by simp only; omega), List.take_length] at h
  exact h

end HBT.GS
