import Verif.Props.ReaderMore
import Verif.Props.MainExample
import Verif.Props.ConfigExample
/-!
# C69: the hypotheses are met, and what the reader gets wrong
-/
set_option linter.unusedSectionVars false
namespace HBT.Props
open HBT HBT.Model HBT.Spec HBT.MainLoop

section
variable {K D E S R : Type} [LinearOrder K] [MassSum K] [Mul K] [LinearOrder R] [LinearOrder E] [Zero E]

theorem saveOps_files {P : Nat} {snapId : Int} {st : Fin P → List (Sub K D)} : ∀ (ops : List (WriteOp P)) {disk disk' : Disk K D},
    saveOps snapId st ops disk = .ok disk' → ∀ k, disk'.sub k ≠ none → disk.sub k ≠ none ∨ k < P
  | [], disk, disk', h, k, hk => by
    cases h
    exact .inl hk
  | o :: ops, disk, disk', h, k, hk => by
    obtain ⟨d, h1, h2⟩ := HBT.bind_eq_ok (show (perform snapId st disk o >>= fun d => saveOps snapId st ops d) = .ok disk' from h)
    rcases saveOps_files ops h2 k hk with h3 | h3
    · cases o with
      | sub r =>
        by_cases hkr : k = r.val
        · exact .inr (hkr ▸ r.isLt)
        · left
          obtain ⟨f, _, h1⟩ := HBT.bind_eq_ok h1
          cases h1
          simpa [hkr] using h3
      | src r =>
        left
        obtain ⟨f, _, h1⟩ := HBT.bind_eq_ok h1
        cases h1
        simpa using h3
    · exact .inr h3

theorem session_files {P : Nat} {b : Build K D S} : ∀ (xs : List (SnapInput K D E S R P × List (WriteOp P))) {st st' : Fin P → List (Sub K D)}
    {disks disks' : Int → Disk K D}, session b xs st disks = .ok (st', disks') →
    ∀ i k, (disks' i).sub k ≠ none → (disks i).sub k ≠ none ∨ (∃ x ∈ xs, x.1.snap = i) ∧ k < P
  | [], st, st', disks, disks', h, i, k, hk => by
    cases h
    exact .inl hk
  | x :: xs, st, st', disks, disks', h, i, k, hk => by
    rw [session] at h
    obtain ⟨y, h1, h2⟩ := HBT.bind_eq_ok h
    rcases session_files xs h2 i k hk with h3 | ⟨⟨x', hx, e⟩, h4⟩
    · rw [takeSnapshot] at h1
      obtain ⟨out, _, h1⟩ := HBT.bind_eq_ok h1
      obtain ⟨d, hd, h1⟩ := HBT.bind_eq_ok h1
      cases h1
      simp only at h3
      split at h3
      · rename_i hi
        rcases saveOps_files x.2 hd k h3 with h5 | h5
        · exact .inl (hi ▸ h5)
        · exact .inr ⟨⟨x, by simp, hi.symm⟩, h5⟩
      · exact .inl h3
    · exact .inr ⟨⟨x', by simp [hx], e⟩, h4⟩
end

/-- **C69.** A run of one session in an empty directory leaves one the reader can read: the snapshots offered are those of the run,
and each shows what the run had in memory at its end. -/
theorem C69_fresh_run {K D E S R : Type} [LinearOrder K] [MassSum K] [Mul K] [LinearOrder R] [LinearOrder E] [Zero E]
    {b : Build K D S} (hb : BuildOk b) (hsum : NonnegSums K) (hm : ∀ p, 0 ≤ b.mass p) {sim : Int → List Int} (hsim : Persistent b sim) {P : Nat} (hP : 0 < P)
    {xs : List (SnapInput K D E S R P × List (WriteOp P))} (hne : xs ≠ []) (hx : Consecutive b sim b.minIndex xs)
    {st st' : Fin P → List (Sub K D)} {disks disks' : Int → Disk K D} (hempty : ∀ i k, (disks i).sub k = none)
    (e : launch P b b.minIndex disks = .ok st) (e' : session b xs st disks = .ok (st', disks'))
    {root : SubRoot K D} (hmulti : root.multi = disks') (hsingle : root.globSingle = []) (hnodup : root.globMulti.Nodup)
    (hglob : ∀ i k, (i, k) ∈ root.globMulti ↔ (disks' i).sub k ≠ none) :
    ∃ (rd : Reader) (tr : List (Σ P, Snapshot K D E P)), openReader root = .ok rd ∧ Run (params b) tr ∧
      xs.map (fun x => x.1.snap) = (tr.map (fun y => y.2.snap)).reverse ∧
      readerSnapshots b.minIndex rd = xs.map (fun x => x.1.snap) ∧
      (∀ (k : Nat) (y : Σ P, Snapshot K D E P), tr[k]? = some y → ∀ isnap : Int, isnap = y.2.snap ∨ isnap = -1 - k →
        Shows root rd isnap (everyone y.2.out)) ∧
      ∀ y : Σ P, Snapshot K D E P, tr.head? = some y → ∀ s ∈ everyone y.2.out,
        getTrack root rd s.trackId = .ok ((visits (ends tr) s.trackId).reverse.map (fun v => (v.1, properties v.2))) := by
  have h0 : b.minIndex + ((0 : Nat) : Int) = b.minIndex := by simp
  have hR := Reach.session (.start disks) hP (Nat.le_refl 0) (by rw [h0]; exact hx) (by rw [h0]; exact e) e'
    (disks' (b.minIndex + (0 : Nat) + xs.length))
  have hd : (fun i => if i = b.minIndex + (0 : Nat) + xs.length then disks' (b.minIndex + (0 : Nat) + xs.length) else disks' i) = disks' := by
    funext i
    split_ifs with h
    · rw [h]
    · rfl
  rw [hd, List.drop_nil, List.append_nil] at hR
  have hU : UniformRoot disks' (xs.reverse.map (fun x => (⟨P, x.1⟩ : Σ P, SnapInput K D E S R P))) P root := by
    refine ⟨hmulti, hsingle, hnodup, hglob, fun x hx => ?_, fun i k hk => ?_⟩
    · obtain ⟨y, _, rfl⟩ := List.mem_map.1 hx
      rfl
    · rcases session_files xs e' i k hk with h | ⟨⟨x, hx, rfl⟩, h⟩
      · exact absurd (hempty i k) h
      · exact ⟨⟨⟨P, x.1⟩, List.mem_map.2 ⟨x, List.mem_reverse.2 hx, rfl⟩, rfl⟩, h⟩
  obtain ⟨rd, tr, h1, h2, h3, h4, h5, h6⟩ := C69_reader hb hsum hm hsim hR (by simpa using hne) hU
  have hs : xs.map (fun x => x.1.snap) = (tr.map (fun y => y.2.snap)).reverse := by
    have : (xs.reverse.map (fun x => (⟨P, x.1⟩ : Σ P, SnapInput K D E S R P))).map (fun x => x.2.snap) = tr.map (fun y => y.2.snap) := by
      refine List.ext_getElem (by simpa using h3.length_eq) fun k a c => ?_
      rw [List.length_map] at a c
      rw [List.getElem_map (fun x : (Σ P, SnapInput K D E S R P) => x.2.snap), List.getElem_map (fun y : (Σ P, Snapshot K D E P) => y.2.snap)]
      exact (List.forall₂_iff_get.1 h3).2 k a c
    rw [← this, List.map_map, ← List.map_reverse, List.reverse_reverse]
    rfl
  exact ⟨rd, tr, h1, h2, hs, by rw [h4, hs], h5, h6⟩

/-! ## A run -/

/-- The directory as the reader sees it, if there are files of two processes for snapshots 0 and 1. -/
def mRoot (disks : Int → Disk ℚ Nat) : SubRoot ℚ Nat := ⟨fun _ => none, disks, [], [(1, 0), (0, 1), (1, 1), (0, 0)]⟩

/-- What the reader shows of it: the properties of the last snapshot, one track, and the particles of a subhalo. -/
def mRead (x : Outcome ((Fin 2 → List (Sub ℚ Nat)) × (Int → Disk ℚ Nat))) :
    Outcome (List MRow × List (Int × Int) × List Int × List Int) := do
  let y ← x
  let rd ← openReader (mRoot y.2)
  let l ← loadSubhalos (mRoot y.2) rd (-1)
  let t ← getTrack (mRoot y.2) rd 1
  let p ← shownParticlesOf (mRoot y.2) rd false (-1) 1
  let q ← shownParticlesOf (mRoot y.2) rd true 1 1
  .ok (mShow l, t.map (fun v => (v.1, v.2.hostHaloId)), p, q)

set_option maxRecDepth 100000 in
example : mRead (mFirst (mBuild true false)) = .ok
    ([⟨0, 200, 0, [], 9, [], -1, -1⟩, ⟨1, -1, 0, [], 2, [], -1, -1⟩, ⟨2, 203, 0, [], 2, [], -1, -1⟩], [(0, 101), (1, -1)], [10, 8], [10, 8, 9, 7]) := by
  decide +kernel

set_option maxRecDepth 100000 in
theorem mFirst_files : ∃ y, mFirst (mBuild true false) = .ok y ∧ ∀ i ∈ [(0 : Int), 1], ∀ k ∈ [0, 1], (y.2 i).sub k ≠ none := by
  have h : (match mFirst (mBuild true false) with
      | .ok y => [((0 : Int), 0), (0, 1), (1, 0), (1, 1)].all (fun x => ((y.2 x.1).sub x.2).isSome) | _ => false) = true := by decide +kernel
  split at h
  · rename_i y hy
    refine ⟨y, hy, fun i hi k hk hn => ?_⟩
    have := List.all_eq_true.1 h (i, k) (by
      simp only [List.mem_cons, List.not_mem_nil, or_false] at hi hk
      rcases hi with rfl | rfl <;> rcases hk with rfl | rfl <;> simp)
    simp only [hn] at this
    cases this
  · cases h

/-- The hypotheses of `C69_fresh_run` and of `C69_reader` are met. -/
example : ∃ st st' disks', launch 2 (mBuild true false) 0 mNone = .ok st ∧
    session (mBuild true false) [(mW0, mOps2), (mW1, mOps2)] st mNone = .ok (st', disks') ∧
    ∃ rd, openReader (mRoot disks') = .ok rd ∧ readerSnapshots 0 rd = [0, 1] := by
  obtain ⟨y, hy, hf⟩ := mFirst_files
  obtain ⟨st, e, e'⟩ := HBT.bind_eq_ok (show (launch 2 (mBuild true false) 0 mNone >>= fun st =>
    session (mBuild true false) [(mW0, mOps2), (mW1, mOps2)] st mNone) = .ok y from hy)
  obtain ⟨rd, tr, h1, _, _, h4, _⟩ := C69_fresh_run (mBuild_ok true false) nonnegSums_exact (fun _ => zero_le_one) (mSim_ok _ _) (show 0 < 2 by decide)
    (xs := [(mW0, mOps2), (mW1, mOps2)]) (by simp) (mXs_ok _ _) (disks := mNone) (disks' := y.2) (st' := y.1) (fun _ _ => rfl) e e'
    (root := mRoot y.2) rfl rfl (show [((1 : Int), 0), (0, 1), (1, 1), (0, 0)].Nodup by decide) (fun i k => by
      constructor
      · intro h
        simp only [mRoot, List.mem_cons, List.not_mem_nil, or_false, Prod.mk.injEq] at h
        exact hf i (by simp; omega) k (by simp; omega)
      · intro h
        rcases session_files _ e' i k h with h | ⟨⟨x, hx, rfl⟩, h⟩
        · exact absurd rfl h
        · simp only [List.mem_cons, List.not_mem_nil, or_false] at hx
          have hk : k = 0 ∨ k = 1 := by omega
          rcases hx with rfl | rfl <;> rcases hk with rfl | rfl <;> simp [mRoot, mW0, mW1, mWorld])
  exact ⟨st, y.1, y.2, e, e', rd, h1, h4⟩

/-! ## Sorting in examples -/

/-- A sort by size and position. -/
def exBySize (l : List (Nat × List Int)) : List (Nat × List Int) :=
  l.insertionSort (fun a b => a.2.length < b.2.length ∨ a.2.length = b.2.length ∧ a.1 ≤ b.1)

def exByPos (l : List (Nat × List Int)) : List (Nat × List Int) := l.insertionSort (fun a b => a.1 ≤ b.1)

theorem exBySize_spec : MassSort exBySize := by
  intro l
  have hp : (exBySize l).Perm l := List.perm_insertionSort _ l
  have : Std.Total (fun a b : Nat × List Int => a.2.length < b.2.length ∨ a.2.length = b.2.length ∧ a.1 ≤ b.1) := ⟨fun a b => by omega⟩
  have : IsTrans (Nat × List Int) (fun a b => a.2.length < b.2.length ∨ a.2.length = b.2.length ∧ a.1 ≤ b.1) := ⟨fun a b c h1 h2 => by omega⟩
  refine ⟨hp, fun h => ?_⟩
  have hs : (exBySize l).Pairwise (fun a b => a.2.length < b.2.length ∨ a.2.length = b.2.length ∧ a.1 ≤ b.1) :=
    List.pairwise_insertionSort _ l
  have hn : (exBySize l).Pairwise (fun a b => a.1 ≠ b.1) :=
    (h.imp (fun hlt => Nat.ne_of_lt hlt)).perm hp.symm (fun hab => Ne.symm hab)
  exact (hs.and hn).imp (fun ⟨h1, h2⟩ => by omega)

theorem exByPos_spec : IdSort exByPos := by
  intro l
  have : Std.Total (fun a b : Nat × List Int => a.1 ≤ b.1) := ⟨fun a b => le_total a.1 b.1⟩
  have : IsTrans (Nat × List Int) (fun a b => a.1 ≤ b.1) := ⟨fun a b c h1 h2 => le_trans h1 h2⟩
  exact ⟨List.perm_insertionSort _ l, List.pairwise_insertionSort _ l⟩

theorem exDistinct_spec : Distinct List.dedup := fun l => ⟨List.nodup_dedup l, fun _ => List.mem_dedup⟩

/-- The larger of two subhaloes loses a particle; of two with one particle each keeps it. -/
example : exclusiveParticles exBySize exByPos List.dedup [[1, 2, 3, 4], [3, 9], [7], [4, 7, 8], [7]] = [[1, 2], [3, 9], [7], [4, 7, 8], [7]] := by
  decide +kernel

example : SharedOut [[1, 2, 3, 4], [3, 9], [7], [4, 7, 8], [7]] [[1, 2], [3, 9], [7], [4, 7, 8], [7]] := by
  have := C69_exclusive exBySize_spec exByPos_spec exDistinct_spec [[1, 2, 3, 4], [3, 9], [7], [4, 7, 8], [7]]
  rwa [show exclusiveParticles exBySize exByPos List.dedup [[1, 2, 3, 4], [3, 9], [7], [4, 7, 8], [7]] =
    [[1, 2], [3, 9], [7], [4, 7, 8], [7]] from by decide +kernel] at this

/-- Positions in ascending order of the keys. -/
def exArgSort (keys : List Int) : List Nat := ((keys.zipIdx).insertionSort (fun a b => a.1 ≤ b.1)).map Prod.snd

theorem exArgSort_spec : ArgSort exArgSort := by
  intro keys
  have hp : (keys.zipIdx.insertionSort (fun a b => a.1 ≤ b.1)).Perm keys.zipIdx := List.perm_insertionSort _ _
  have : Std.Total (fun a b : Int × Nat => a.1 ≤ b.1) := ⟨fun a b => le_total a.1 b.1⟩
  have : IsTrans (Int × Nat) (fun a b => a.1 ≤ b.1) := ⟨fun a b c h1 h2 => le_trans h1 h2⟩
  have hs : (keys.zipIdx.insertionSort (fun a b => a.1 ≤ b.1)).Pairwise (fun a b => a.1 ≤ b.1) := List.pairwise_insertionSort _ _
  refine ⟨?_, (keys.zipIdx.insertionSort (fun a b => a.1 ≤ b.1)).map Prod.fst, ?_, List.pairwise_map.2 hs⟩
  · refine (hp.map Prod.snd).trans (List.Perm.of_eq ?_)
    refine List.ext_getElem (by simp) fun k a b => ?_
    simp
  · unfold exArgSort
    rw [List.map_map, List.map_map]
    refine List.map_congr_left fun x hx => ?_
    exact List.mem_zipIdx_iff_getElem?.1 (hp.mem_iff.1 hx)

/-- The catalogue of three processes, combined. -/
example : ∃ disk f, saveOps 5 exCatSt exCatOps emptyDisk = .ok disk ∧ combineSubSnap exArgSort disk = .ok f ∧
    f.table.map Sub.trackId = [0, 1, 2, 3] ∧ f.boundIds = [[10, 11], [], [13], [20, 21, 22]] ∧ f.nested = [[2], [], [], []] := by
  have h : (match saveOps 5 exCatSt exCatOps emptyDisk with
    | .ok disk => (match combineSubSnap exArgSort disk with
      | .ok f => decide (f.table.map Sub.trackId = [0, 1, 2, 3] ∧ f.boundIds = [[10, 11], [], [13], [20, 21, 22]] ∧ f.nested = [[2], [], [], []])
      | _ => false)
    | _ => false) = true := by decide +kernel
  split at h
  · rename_i disk hd
    split at h
    · rename_i f hf
      exact ⟨disk, f, hd, hf, of_decide_eq_true h⟩
    · cases h
  · cases h

/-- The hypothesis on the TrackIds. -/
example : ((everyone exCatSt).map Sub.trackId).Perm ((List.range 4).map (fun i : Nat => (i : Int))) := by decide +kernel

/-! ## Parameters -/

example : configGet (dumpParameters printWhole "1.0".toList exampleConfig) "MaxSnapshotIndex".toList = .ok [decimal exampleConfig.maxSnapshotIndex] :=
  (C69_parameters exampleConfig_dumpable "1.0".toList).2.1 ("MaxSnapshotIndex".toList, 32, fun c => c.maxSnapshotIndex) (by simp [intParams])

/-! ## What does not hold -/

/-- A directory with the given files, which `glob` lists. -/
def exRoot (disk : Disk Nat Nat) (n : Nat) : SubRoot Nat Nat :=
  ⟨fun _ => none, fun i => if i = 0 then disk else emptyDisk, [], (List.range n).map (fun k => (0, k))⟩

def exOneProc : Fin 1 → List (Sub Nat Nat) := fun _ => [exCat 0 3 [10, 11, 12] [], exCat 1 2 [20, 21] []]

/-- **C69.** Files that an earlier session with more processes has left in the directory of the last snapshot are read as part of
the catalogue: two processes write tracks 0 and 1, then one process begins again and writes both. Track 1 is listed twice. -/
theorem C69_stale_files : ∃ disk disk' rd rows, saveOps 0 exCatOld [.sub 0, .src 0, .sub 1, .src 1] emptyDisk = .ok disk ∧
    saveOps 0 exOneProc [.sub 0, .src 0] disk = .ok disk' ∧ (∀ k, (0, k) ∈ (exRoot disk' 2).globMulti ↔ disk'.sub k ≠ none) ∧
    openReader (exRoot disk' 2) = .ok rd ∧ loadSubhalos (exRoot disk' 2) rd 0 = .ok rows ∧ rows.map Sub.trackId = [0, 1, 1] := by
  have h : (match saveOps 0 exCatOld [.sub 0, .src 0, .sub 1, .src 1] emptyDisk with
    | .ok disk => (match saveOps 0 exOneProc [.sub 0, .src 0] disk with
      | .ok disk' => (match openReader (exRoot disk' 2) with
        | .ok rd => (match loadSubhalos (exRoot disk' 2) rd 0 with
          | .ok rows => decide (rows.map Sub.trackId = [0, 1, 1] ∧ (disk'.sub 0).isSome ∧ (disk'.sub 1).isSome) | _ => false)
        | _ => false)
      | _ => false)
    | _ => false) = true := by decide +kernel
  split at h
  · rename_i disk hd
    split at h
    · rename_i disk' hd'
      split at h
      · rename_i rd hrd
        split at h
        · rename_i rows hrows
          obtain ⟨h1, h2, h3⟩ := of_decide_eq_true h
          refine ⟨disk, disk', rd, rows, hd, hd', fun k => ?_, hrd, hrows, h1⟩
          have hm : (0, k) ∈ (exRoot disk' 2).globMulti ↔ k < 2 := by simp [exRoot]
          rw [hm]
          constructor
          · intro hk hn
            have : k = 0 ∨ k = 1 := by omega
            rcases this with rfl | rfl
            · rw [hn] at h2; cases h2
            · rw [hn] at h3; cases h3
          · intro hk
            rcases saveOps_files (K := Nat) (D := Nat) _ hd' k hk with h | h
            · rcases saveOps_files (K := Nat) (D := Nat) _ hd k h with h | h
              · exact absurd rfl h
              · exact h
            · omega
        · cases h
      · cases h
    · cases h
  · cases h

/-- **C69.** Index `-1` does not give the last subhalo of a catalogue in several files, but the last one of the first file that has any. -/
theorem C69_negative_index : ∃ disk rows, saveOps 0 exCatOld [.sub 0, .src 0, .sub 1, .src 1] emptyDisk = .ok disk ∧
    loadSubhalos (exRoot disk 2) ⟨0, 2⟩ 0 = .ok rows ∧ rows.map Sub.trackId = [0, 1] ∧
    ∃ s, loadSubhalo (exRoot disk 2) ⟨0, 2⟩ 0 (-1) = .ok [s] ∧ s.trackId = 0 := by
  have h : (match saveOps 0 exCatOld [.sub 0, .src 0, .sub 1, .src 1] emptyDisk with
    | .ok disk => (match loadSubhalos (exRoot disk 2) ⟨0, 2⟩ 0 with
      | .ok rows => (match loadSubhalo (exRoot disk 2) ⟨0, 2⟩ 0 (-1) with
        | .ok [s] => decide (rows.map Sub.trackId = [0, 1] ∧ s.trackId = 0) | _ => false)
      | _ => false)
    | _ => false) = true := by decide +kernel
  split at h
  · rename_i disk hd
    split at h
    · rename_i rows hrows
      split at h
      · rename_i s hs
        obtain ⟨h1, h2⟩ := of_decide_eq_true h
        exact ⟨disk, rows, hd, hrows, h1, s, hs, h2⟩
      · cases h
    · cases h
  · cases h

/-- The files of two processes read by a reader that has seen one file in the last snapshot. -/
example : ∃ disk, saveOps 0 exCatOld [.sub 0, .src 0, .sub 1, .src 1] emptyDisk = .ok disk ∧
    ∃ rows, loadSubhalos (exRoot disk 2) ⟨1, 1⟩ 0 = .ok rows ∧ rows.map Sub.trackId = [0] := by
  have h : (match saveOps 0 exCatOld [.sub 0, .src 0, .sub 1, .src 1] emptyDisk with
    | .ok disk => (match loadSubhalos (exRoot disk 2) ⟨1, 1⟩ 0 with
      | .ok rows => decide (rows.map Sub.trackId = [0]) | _ => false)
    | _ => false) = true := by decide +kernel
  split at h
  · rename_i disk hd
    split at h
    · rename_i rows hrows
      exact ⟨disk, hd, rows, hrows, of_decide_eq_true h⟩
    · cases h
  · cases h

end HBT.Props
