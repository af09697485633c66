import Verif.Props.GadgetSnap
import Mathlib.Data.Rat.Floor
import Mathlib.Algebra.Order.Ring.Rat
/-!
# A concrete snapshot for C57

Two files written on a big-endian machine, read on a little-endian one: two gas particles with
own masses, three dark matter particles with a common mass. Words stand for the number they spell
in little-endian order.
-/
namespace HBT.Props.GadgetExample
open HBT HBT.Model HBT.Spec HBT.GS HBT.Props

def w4 (n : Nat) : List Byte := lowBytes 4 n
def w8 (n : Nat) : List Byte := lowBytes 8 n

def env : GadgetEnv ℚ where
  le := true
  real4 w := (loadNat true w : ℚ)
  real8 w := (loadNat true w : ℚ)
  sqrt x := x / 2
  dmOnly := false
  thermal := true
  intBytes := 8
  boxSize := 100
  periodic := true
  hasId := true
  idRankStyle := false
  idUnsigned := true

def part (x : Nat) (id : Int) : RawParticle where
  pos := fun j => w4 (x + j.val)
  vel := fun j => w4 (7 * x + j.val)
  id := id
  mass := w4 (x + 11)
  energy := w4 (x + 1000)

def header : RawHeader where
  masses t := if t = 1 then w8 5 else w8 0
  scaleFactor := w8 4
  redshift := w8 0
  flagSfr := w4 0
  flagFeedback := w4 0
  totals t := if t = 0 then 2 else if t = 1 then 3 else 0
  flagCooling := w4 0
  numFiles := 2
  boxSize := w8 100
  omegaM0 := w8 3
  omegaLambda0 := w8 7
  hubbleParam := w8 1
  fill := List.replicate 96 0

def file0 : RawFile := ⟨header, fun t => if t = 0 then [part 30 4000000000] else if t = 1 then [part 199 2] else [], []⟩
def file1 : RawFile := ⟨header, fun t => if t = 0 then [part 50 3] else if t = 1 then [part 60 4, part 99 5] else [], [1, 2, 3]⟩

def reading : Reading ℚ where
  real := if 4 = 4 then env.real4 else env.real8
  dbl := env.real8
  place := fun x => if env.periodic = true then positionModulus x env.boxSize else x
  velScale := env.sqrt (env.real8 header.scaleFactor)
  hasId := env.hasId
  dmOnly := env.dmOnly
  thermal := env.thermal

theorem header_sized : header.WellSized :=
  ⟨by decide, rfl, rfl, rfl, rfl, rfl, rfl, rfl, rfl, rfl, rfl⟩

theorem part_sized (x : Nat) (id : Int) : (part x id).WellSized 4 :=
  ⟨fun _ => lowBytes_length _ _, fun _ => lowBytes_length _ _, lowBytes_length _ _, lowBytes_length _ _⟩

theorem sized (f : RawFile) (hf : f = file0 ∨ f = file1) (t : Fin 6) : ∀ p ∈ f.parts t, p.WellSized 4 := by
  rcases hf with rfl | rfl <;> revert t <;> intro t <;>
  · simp only [file0, file1]
    split
    · intro p hp; simp only [List.mem_singleton] at hp; subst hp; exact part_sized _ _
    · split
      · intro p hp
        simp only [List.mem_cons, List.not_mem_nil, or_false] at hp
        rcases hp with rfl | rfl <;> exact part_sized _ _
      · intro p hp; simp at hp

/-- The hypotheses of `C57_load` and `C57_complete` hold. -/
example : (∀ f ∈ [file0, file1], f.Acceptable reading env.idUnsigned env.intBytes 4 4 2 ∧ f.Complete reading) ∧
    file0.all ≠ [] ∧ env.real8 file0.header.boxSize = env.boxSize := by
  refine ⟨?_, by decide +kernel, by decide +kernel⟩
  intro f hf
  have hf : f = file0 ∨ f = file1 := by simpa using hf
  refine ⟨⟨?_, sized f hf, ?_, ?_, ?_⟩, ⟨?_, ?_, ?_⟩⟩
  · rcases hf with rfl | rfl <;> exact header_sized
  · rcases hf with rfl | rfl <;> decide +kernel
  · rcases hf with rfl | rfl <;> rfl
  · intro _
    rcases hf with rfl | rfl
    · intro p hp
      have : p = part 30 4000000000 ∨ p = part 199 2 := by
        rw [mem_all] at hp
        obtain ⟨t, ht⟩ := hp
        simp only [file0] at ht
        split at ht
        · left; simpa using ht
        · split at ht
          · right; simpa using ht
          · simp at ht
      rcases this with rfl | rfl <;> simp [IdFits, part, env]
    · intro p hp
      have : p = part 50 3 ∨ p = part 60 4 ∨ p = part 99 5 := by
        rw [mem_all] at hp
        obtain ⟨t, ht⟩ := hp
        simp only [file1] at ht
        split at ht
        · left; simpa using ht
        · split at ht
          · right; simpa using ht
          · simp at ht
      rcases this with rfl | rfl | rfl <;> simp [IdFits, part, env]
  · rcases hf with rfl | rfl <;> intro t <;>
    · simp only [file0, file1, header]
      split
      · simp
      · split <;> simp
  · intro _ _
    rcases hf with rfl | rfl <;> simp [file0, file1]
  · intro h; cases h

/-- The program run on these files with two processes: for each process the cosmology and for each
particle first position, second velocity component, id, mass, type and energy (-1: not set). -/
def report : Option (List (List (List ℚ))) :=
  match loadGadget env 2 ([file0, file1].map (gadgetBytes false true 4 true fun w => decide (env.real8 w = 0))) with
  | .ok out => some ((List.finRange 2).map fun r => [(out r).1.1, (out r).1.2.1, (out r).1.2.2] ::
      (out r).2.map fun p => [p.pos 0, p.vel 1, (p.id : ℚ), p.mass,
        match p.type with | some t => (t : ℚ) | none => -1, match p.energy with | some e => e | none => -1])
  | _ => none

example : report =
    some [[[4, 3, 7], [30, 422, 4000000000, 41, 0, 1030], [99, 2788, 2, 5, 1, -1]],
      [[4, 3, 7], [50, 702, 3, 61, 0, 1050], [60, 842, 4, 5, 1, -1], [99, 1388, 5, 5, 1, -1]]] := by
  decide +kernel

/-- The kind of outcome of a run. -/
def kind {α : Type} : Outcome α → Nat
  | .ok _ => 0
  | .ub => 1
  | .abort => 2
  | .diverge => 3

/-- Run on a list of files. -/
def run (e : GadgetEnv ℚ) (fs : List RawFile) :=
  loadGadget e 2 (fs.map (gadgetBytes false true 4 true fun w => decide (e.real8 w = 0)))

/-- An empty file. -/
def empty : RawFile := ⟨header, fun _ => [], []⟩
/-- A file without gas. -/
def noGas : RawFile := ⟨header, fun t => if t = 1 then [part 10 1] else [], []⟩

/-- `C57_empty_first_finding`, `C57_no_gas_finding`, `C57_wrong_box`, `C57_missing_file`: the files meet the
hypotheses, and the program ends as stated. -/
example : kind (run env [empty, file0]) = 1 := by decide +kernel
example : kind (run env [file0, noGas]) = 1 := by decide +kernel
example : kind (run { env with thermal := false } [file0, noGas]) = 0 := by decide +kernel
example : kind (run { env with boxSize := 50 } [file0, file1]) = 2 := by decide +kernel
example : kind (run env [file0]) = 2 := by decide +kernel
example : kind (loadGadget env 1 [bytes32 true 255#32 ++ List.replicate 400 0]) = 2 := by decide +kernel

/-- `C57_unsigned_finding`: a program with four-byte integers. -/
example : memberId { env with intBytes := 4 } 4 (intBytes true 4 4294967295) = -1 := by decide +kernel

/-- `C57_totals_finding`: the header says 2^32 gas particles in all; the masses 41 and 61 are lost. -/
def wrapped (f : RawFile) : RawFile :=
  ⟨{ header with totals := fun t => if t = 0 then 2 ^ 32 else if t = 1 then 3 else 0 }, f.parts, f.rest⟩

example : (match run { env with thermal := false } [wrapped file0, wrapped file1] with
    | .ok out => some ((List.finRange 2).map fun r => (out r).2.map fun p => p.mass)
    | _ => none) = some [[0, 5], [0, 5, 5]] := by decide +kernel

end HBT.Props.GadgetExample
