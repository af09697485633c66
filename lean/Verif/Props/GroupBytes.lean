import Verif.Lemmas.GroupBytes
/-!
# C62: the files of a group catalogue
-/
namespace HBT.Props
open HBT HBT.Model HBT.Spec HBT.GS HBT.GroupBytes

theorem width_dvd (long : Bool) : 8 ∣ idWidth long := by cases long <;> decide

theorem load_dispatch (le v3 long : Bool) (mask : BitVec 64) (rankStyle : Bool) (P : Nat) (dir : GroupDir) {info : GroupInfo}
    (e : findGroupFiles le (formatName v3 long) dir = .ok info) :
    loadGroupFiles le (formatName v3 long) mask rankStyle P dir =
      loadPids (idWidth long) le (formatName v3 long) (mask.setWidth (idWidth long)) rankStyle P dir info := by
  unfold loadGroupFiles
  rw [e, Outcome.bind_ok]
  cases long
  · rw [if_pos (by cases v3 <;> decide)]; rfl
  · rw [if_neg (by cases v3 <;> decide), if_pos (by cases v3 <;> decide)]
    show _ = loadPids 64 le (formatName v3 true) (mask.setWidth 64) rankStyle P dir info
    rw [BitVec.setWidth_eq]

theorem here_found {long : Bool} {dir : GroupDir} {p : Place} {fe le v3 : Bool} {files : List (RawGroups (idWidth long))} (hs : Stored dir p fe v3 files)
    (hok : ∀ f ∈ files, f.WellFormed) (hn : files.length < 2 ^ 16) :
    ∃ info, findGroupFiles le (formatName v3 long) dir = .ok info ∧ Here dir p fe le v3 files info := by
  have hlen : 0 < files.length := by have := hs.several; split at this <;> omega
  have hcount : (if p.numbered then dir.count p else 1) = files.length := by
    have := hs.several
    split at this
    · next h => rw [if_pos h, hs.count h]
    · next h => rw [if_neg h, this]
  obtain ⟨f, hf⟩ : ∃ f, files[0]? = some f := ⟨_, List.getElem?_eq_getElem hlen⟩
  refine ⟨⟨p, files.length, fe != le⟩, ?_, ⟨hs, rfl, by omega, hok⟩⟩
  rw [search_found (hs.tab 0 f hf) hs.first, hcount, byteOrder_eq long p.sub files.length files.length f hlen hn hn, if_pos rfl, Outcome.bind_ok]

/-- C62. A group catalogue in any of the four formats `gadget2_int`, `gadget2_long`, `gadget3_int`, `gadget3_long`, in one unnumbered pair of files or
several numbered ones, at any of the places where catalogues are looked for, written in either byte order, is read on a host of either byte order by
any number of processes (not more than ids): the haloes of the processes, one process after the other, are the groups of the
catalogue in order, with their numbers and their ids; only empty groups at the very end may be left out. -/
theorem C62_files (le fe v3 long : Bool) (mask : BitVec 64) (P : Nat) (hP : 0 < P) (dir : GroupDir) (p : Place)
    (files : List (RawGroups (idWidth long))) (hs : Stored dir p fe v3 files) (hok : ∀ f ∈ files, f.WellFormed) (hn : files.length < 2 ^ 16)
    (lens : List Nat) (hl : lens = (files.map RawGroups.lens).flatten)
    (ids : List Int) (hi : ids = (files.map RawGroups.ids).flatten.map (idOf (mask.setWidth (idWidth long))))
    (hsum : lens.sum = ids.length) (henough : ids.length = 0 ∨ P ≤ ids.length) :
    ∃ out, loadGroupFiles le (formatName v3 long) mask false P dir = .ok out ∧ ∃ m,
      (List.ofFn out).flatten = ((catalogue lens ids).take m).map (fun g => ((g.1 : Int), g.2)) ∧
      ∀ g ∈ (catalogue lens ids).drop m, g.2 = [] := by
  have e1 : groupLens (asFiles files) = lens := by
    rw [hl]; unfold groupLens asFiles; rw [List.map_map]; rfl
  have e0 : (asFiles files).map GroupFile.ids = files.map RawGroups.ids := by unfold asFiles; rw [List.map_map]; rfl
  have e2 : groupIds (mask.setWidth (idWidth long)) (asFiles files) = ids := by
    rw [hi]; unfold groupIds; rw [e0]
  have hc : Complete (asFiles files) := by
    refine ⟨fun g hg => ?_, ?_⟩
    · unfold asFiles at hg ⊢
      obtain ⟨f, _, rfl⟩ := List.mem_map.1 hg
      simp
    · rw [e1, hsum, e0, hi, List.length_map]
  obtain ⟨out, h1, m, h2, h3⟩ := C43_groups P hP (mask.setWidth (idWidth long)) (asFiles files) hc (by rw [e2]; exact henough)
  rw [e1, e2] at h2 h3
  obtain ⟨info, hf, hh⟩ := here_found (le := le) hs hok hn
  refine ⟨out, ?_, m, h2, h3⟩
  rw [load_dispatch le v3 long mask false P dir hf]
  exact here_pids (width_dvd long) hh (isV3_name v3 long) h1

/-- C62. What is read depends on the groups alone: two catalogues of the same groups in different formats, byte orders, places and numbers of files,
read on different hosts by different numbers of processes, give the same groups, empty ones aside. -/
theorem C62_layout (le le' fe fe' v3 v3' long long' : Bool) (P P' : Nat) (hP : 0 < P) (hP' : 0 < P') (dir dir' : GroupDir) (p p' : Place)
    (files : List (RawGroups (idWidth long))) (files' : List (RawGroups (idWidth long')))
    (hs : Stored dir p fe v3 files) (hs' : Stored dir' p' fe' v3' files') (hok : ∀ f ∈ files, f.WellFormed) (hok' : ∀ f ∈ files', f.WellFormed)
    (hn : files.length < 2 ^ 16) (hn' : files'.length < 2 ^ 16)
    (hlens : (files.map RawGroups.lens).flatten = (files'.map RawGroups.lens).flatten)
    (hids : (files.map RawGroups.ids).flatten.map BitVec.toInt = (files'.map RawGroups.ids).flatten.map BitVec.toInt)
    (hsum : (files.map RawGroups.lens).flatten.sum = (files.map RawGroups.ids).flatten.length)
    (henough : P ≤ (files.map RawGroups.ids).flatten.length) (henough' : P' ≤ (files.map RawGroups.ids).flatten.length) :
    ∃ out out', loadGroupFiles le (formatName v3 long) 0 false P dir = .ok out ∧ loadGroupFiles le' (formatName v3' long') 0 false P' dir' = .ok out' ∧
      (List.ofFn out).flatten.filter (fun g => decide (g.2 ≠ [])) = (List.ofFn out').flatten.filter (fun g => decide (g.2 ≠ [])) := by
  have hz : ∀ long : Bool, (idOf ((0 : BitVec 64).setWidth (idWidth long))) = BitVec.toInt := by
    intro long
    funext x
    unfold idOf
    rw [if_pos (by cases long <;> decide)]
  have hlen := congrArg List.length hids
  rw [List.length_map, List.length_map] at hlen
  obtain ⟨out, h1, m, h2, h3⟩ := C62_files le fe v3 long 0 P hP dir p files hs hok hn _ rfl _ rfl (by rw [List.length_map]; exact hsum)
    (Or.inr (by rw [List.length_map]; exact henough))
  obtain ⟨out', h1', m', h2', h3'⟩ := C62_files le' fe' v3' long' 0 P' hP' dir' p' files' hs' hok' hn' _ rfl _ rfl
    (by rw [List.length_map, ← hlens, ← hlen]; exact hsum) (Or.inr (by rw [List.length_map, ← hlen]; exact henough'))
  refine ⟨out, out', h1, h1', ?_⟩
  rw [hz, hids] at h2 h3
  rw [hz, ← hlens] at h2' h3'
  have key : ∀ (cat : List (Nat × List Int)) (m : Nat), (∀ g ∈ cat.drop m, g.2 = []) →
      ((cat.take m).map (fun g => ((g.1 : Int), g.2))).filter (fun g => decide (g.2 ≠ [])) =
        (cat.map (fun g => ((g.1 : Int), g.2))).filter (fun g => decide (g.2 ≠ [])) := by
    intro cat m h
    conv_rhs => rw [← List.take_append_drop m cat, List.map_append, List.filter_append]
    have : ((cat.drop m).map (fun g => ((g.1 : Int), g.2))).filter (fun g => decide (g.2 ≠ [])) = [] := by
      rw [List.filter_eq_nil_iff]
      intro g hg
      obtain ⟨g', hg', rfl⟩ := List.mem_map.1 hg
      simp [h g' hg']
    rw [this, List.append_nil]
  rw [h2, h2', key _ _ h3, key _ _ h3']

/-- C62. A catalogue with a missing or an additional file is refused: the first `tab` file says that there are `n` files, but another number is found. -/
theorem C62_wrong_count (le fe v3 long : Bool) (mask : BitVec 64) (rankStyle : Bool) (P : Nat) (dir : GroupDir) (p : Place) (hp : p.numbered = true)
    (n : Nat) (hn : 0 < n) (hn' : n < 2 ^ 16) (f : RawGroups (idWidth long))
    (first : ∀ q ∈ Place.all.takeWhile (fun q => decide (q ≠ p)), dir.file q .tab (q.number 0) = none)
    (htab : dir.file p .tab (some 0) = some (tabBytes fe v3 p.sub n f)) (hcount : dir.count p ≠ n) (hcount' : dir.count p < 2 ^ 16) :
    loadGroupFiles le (formatName v3 long) mask rankStyle P dir = .abort := by
  unfold loadGroupFiles
  rw [search_found (p := p) (c := tabBytes fe v3 p.sub n f) (by unfold Place.number; rw [if_pos hp]; exact htab) first, if_pos hp,
    byteOrder_eq long p.sub n _ f hn hn' hcount', if_neg hcount]
  rfl

/-- C62, finding. A catalogue of a single file with a number in its name (`groups_NNN/subhalo_tab_NNN.0`) is found, but its name is then printed without the
number the format asks for: undefined behaviour. -/
theorem C62_single_numbered_file (le fe v3 long : Bool) (mask : BitVec 64) (rankStyle : Bool) (P : Nat) (dir : GroupDir) (p : Place) (hp : p.numbered = true)
    (f : RawGroups (idWidth long)) (first : ∀ q ∈ Place.all.takeWhile (fun q => decide (q ≠ p)), dir.file q .tab (q.number 0) = none)
    (htab : dir.file p .tab (some 0) = some (tabBytes fe v3 p.sub 1 f)) (hcount : dir.count p = 1) :
    loadGroupFiles le (formatName v3 long) mask rankStyle P dir = .ub := by
  have e : findGroupFiles le (formatName v3 long) dir = .ok ⟨p, 1, fe != le⟩ := by
    rw [search_found (p := p) (c := tabBytes fe v3 p.sub 1 f) (by unfold Place.number; rw [if_pos hp]; exact htab) first, if_pos hp, hcount,
      byteOrder_eq long p.sub 1 1 f (by decide) (by decide) (by decide), if_pos rfl]
    rfl
  rw [load_dispatch le v3 long mask rankStyle P dir e]
  have h1 : readGroupMeta le (formatName v3 long) dir ⟨p, 1, fe != le⟩ 0 = .ub := by
    unfold readGroupMeta readTabHead openGroupFile
    rw [if_pos ⟨le_refl _, hp⟩]
    rfl
  unfold loadPids
  simp only
  rw [readEach, h1]
  rfl

/-- C62. `ids` files that hold more than the ids announced in the `tab` files are refused, by any number of processes: in particular ids of 64 bits are not
read in a format for ids of 32 bits. (`dir` has the `tab` files of `full`, in which all is well.) -/
theorem C62_long_ids_files (le fe v3 long : Bool) (mask : BitVec 64) (rankStyle : Bool) (P : Nat) (hP : 0 < P) (full dir : GroupDir) (p : Place)
    (files : List (RawGroups (idWidth long))) (hs : Stored full p fe v3 files) (hok : ∀ f ∈ files, f.WellFormed) (hn : files.length < 2 ^ 16)
    (hsum : (files.map RawGroups.lens).flatten.sum = (files.map RawGroups.ids).flatten.length)
    (henough : P ≤ (files.map RawGroups.ids).flatten.length)
    (htab : ∀ q n, dir.file q .tab n = full.file q .tab n) (hcount : dir.count = full.count)
    (hlong : ∀ i f, files[i]? = some f → f.ids ≠ [] → ∀ c, dir.file p .ids (p.number i) = some c →
      (idsBytes fe v3 files.length f).length < c.length) :
    ∀ out, loadGroupFiles le (formatName v3 long) mask rankStyle P dir ≠ .ok out := by
  intro out
  obtain ⟨info, hf, hh⟩ := here_found (le := le) hs hok hn
  have hf' : findGroupFiles le (formatName v3 long) dir = .ok info := by
    rw [← hf]
    unfold findGroupFiles
    generalize [Place.subGroups, Place.fofGroups, Place.fofSnapdir, Place.subFlat, Place.fofFlat] = l
    induction l with
    | nil => rfl
    | cons q l ih =>
      rw [searchPlaces, searchPlaces, htab, hcount, ih]
  rw [load_dispatch le v3 long mask rankStyle P dir hf']
  have hv := isV3_name v3 long
  have hcnt : info.count = files.length := by rw [hh.info_]
  have hlen : (files.map RawGroups.ids).flatten.length = (files.map (fun f => f.ids.length)).sum := by
    rw [List.length_flatten, List.map_map]; rfl
  have hm : readEach (readGroupMeta le (formatName v3 long) dir info) info.count 0 = .ok (files.map (fun f => (f.lens.length, f.ids.length))) := by
    rw [hcnt]
    refine each_ok _ _ _ _ (fun j f hj => ?_)
    rw [Nat.zero_add]
    have := meta_ok hh hv hj
    unfold readGroupMeta at this ⊢
    rw [head_congr htab, this]
  have hl : readEach (readGroupLens le (formatName v3 long) dir info) info.count 0 = .ok (files.map RawGroups.lens) := by
    rw [hcnt]
    refine each_ok _ _ _ _ (fun j f hj => ?_)
    rw [Nat.zero_add]
    have := lens_ok hh hv hj
    unfold readGroupLens at this ⊢
    rw [head_congr htab, this]
  refine pids_fails hP (lens := (files.map RawGroups.lens).flatten) (sizes := files.map (fun f => f.ids.length)) (by rw [hsum, hlen]) (by rw [← hlen]; exact henough)
    (by rw [List.map_map]; rfl) hm rfl hl (fun i hi hpos start fin l hs0 => ?_) out
  rw [List.length_map] at hi
  rw [List.getElem_map] at hpos
  have hg : files[i]? = some files[i] := List.getElem?_eq_getElem hi
  exact long_ids htab hh hv _ rankStyle hg (hlong i _ hg (fun h => by rw [h] at hpos; simp at hpos)) hs0 l

/-- C62, finding. An `ids` file that ends too early is accepted: when the file of a catalogue in one piece holds only the first `k` ids, a single process reads
it without complaint and fills up with particles of id 0. -/
theorem C62_short_ids_file (le fe v3 long : Bool) (mask : BitVec 64) (dir : GroupDir) (p : Place) (hp : p.numbered = false)
    (f : RawGroups (idWidth long)) (hf : f.WellFormed) (first : ∀ q ∈ Place.all.takeWhile (fun q => decide (q ≠ p)), dir.file q .tab (q.number 0) = none)
    (htab : dir.file p .tab none = some (tabBytes fe v3 p.sub 1 f)) (k : Nat) (hk : k ≤ f.ids.length)
    (hids : dir.file p .ids none = some (idsHeader fe v3 1 f ++ (f.ids.take k).flatMap (wordBytes fe)))
    (hsum : f.lens.sum = f.ids.length) (hpos : 0 < f.ids.length) :
    ∃ out, loadGroupFiles le (formatName v3 long) mask false 1 dir = .ok out ∧ ∃ m,
      out 0 = ((catalogue f.lens ((f.ids.take k).map (idOf (mask.setWidth (idWidth long))) ++ List.replicate (f.ids.length - k) 0)).take m).map
        (fun g => ((g.1 : Int), g.2)) ∧
      ∀ g ∈ (catalogue f.lens ((f.ids.take k).map (idOf (mask.setWidth (idWidth long))) ++ List.replicate (f.ids.length - k) 0)).drop m, g.2 = [] := by
  have hnum : ∀ i, p.number i = none := by intro i; unfold Place.number; rw [hp]; rfl
  have hst : Stored (completed dir (idsBytes fe v3 1 f)) p fe v3 [f] := by
    refine ⟨fun q hq => ?_, by simp [hp], fun h => (by rw [hp] at h; cases h), fun i g hg => ?_, fun i g hg => ?_⟩
    · unfold completed
      simpa using first q hq
    · obtain ⟨rfl, rfl⟩ : i = 0 ∧ f = g := by cases i <;> simp at hg; exact ⟨rfl, hg⟩
      rw [hnum]
      unfold completed
      simpa using htab
    · obtain ⟨rfl, rfl⟩ : i = 0 ∧ f = g := by cases i <;> simp at hg; exact ⟨rfl, hg⟩
      unfold completed
      simp
  have hh : Here (completed dir (idsBytes fe v3 1 f)) p fe le v3 [f] ⟨p, 1, fe != le⟩ :=
    ⟨hst, rfl, by simp, fun g hg => by rw [List.mem_singleton.1 hg]; exact hf⟩
  have e : findGroupFiles le (formatName v3 long) dir = .ok ⟨p, 1, fe != le⟩ := by
    rw [search_found (p := p) (c := tabBytes fe v3 p.sub 1 f) (by rw [hnum]; exact htab) first, if_neg (by rw [hp]; simp),
      byteOrder_eq long p.sub 1 1 f (by decide) (by decide) (by decide), if_pos rfl]
    rfl
  obtain ⟨mask', hmask⟩ : ∃ m, m = mask.setWidth (idWidth long) := ⟨_, rfl⟩
  rw [load_dispatch le v3 long mask false 1 dir e, ← hmask]
  have hg1 : groupLens (asFiles [padded k f]) = f.lens := by simp [groupLens, asFiles, padded]
  have hg2 : groupIds mask' (asFiles [padded k f]) = (f.ids.take k).map (idOf mask') ++ List.replicate (f.ids.length - k) 0 := by
    simp [groupIds, asFiles, padded, idOf]
  have hlen : ((f.ids.take k).map (idOf mask') ++ List.replicate (f.ids.length - k) 0).length = f.ids.length := by
    rw [List.length_append, List.length_map, List.length_take, List.length_replicate]; omega
  have hc : Complete (asFiles [padded k f]) := by
    refine ⟨fun g hg => by simp [asFiles] at hg ⊢; rw [hg], ?_⟩
    rw [hg1, hsum, ← padded_length k f]
    simp [asFiles]
  obtain ⟨out, h1, m, h2, h3⟩ := C43_groups 1 (by decide) mask' _ hc (Or.inr (by rw [hg2, hlen]; exact hpos))
  rw [hg1, hg2] at h2 h3
  refine ⟨out, ?_, m, by rw [← h2]; simp, h3⟩
  have hv := isV3_name v3 long
  refine pids_ok (by simp [asFiles]) (fun i g hg => ?_) (fun i g hg => ?_) (fun plan hplan t ht i g l hi hg e => ?_) h1
  · obtain ⟨f', hf', rfl⟩ := asFiles_get hg
    obtain ⟨rfl, rfl⟩ : i = 0 ∧ padded k f = f' := by cases i <;> simp at hf'; exact ⟨rfl, hf'⟩
    have := meta_ok hh hv (i := 0) rfl
    unfold readGroupMeta at this ⊢
    rw [completed_head] at this
    rw [this, padded_length]
    rfl
  · obtain ⟨f', hf', rfl⟩ := asFiles_get hg
    obtain ⟨rfl, rfl⟩ : i = 0 ∧ padded k f = f' := by cases i <;> simp at hf'; exact ⟨rfl, hf'⟩
    have := lens_ok hh hv (i := 0) rfl
    unfold readGroupLens at this ⊢
    rw [completed_head] at this
    exact this
  · obtain ⟨f', hf', rfl⟩ := asFiles_get hg
    obtain ⟨hi0, rfl⟩ : i.toNat = 0 ∧ padded k f = f' := by
      generalize i.toNat = j at hf'
      cases j <;> simp at hf'; exact ⟨rfl, hf'⟩
    rw [show (asFiles [padded k f]).map (fun f => f.ids.length) = [f.ids.length] by simp [asFiles, padded_length],
      show ((asFiles [padded k f]).map GroupFile.len).flatten = f.lens from hg1] at hplan
    obtain ⟨t1, t2, t3, t4⟩ := single_task f.lens f.ids.length hpos hsum hplan t ht
    obtain rfl : i = 0 := by omega
    rw [t1, t2, t3, t4, if_pos rfl, if_pos (by omega)] at e ⊢
    rw [show (0 : Int).toNat = 0 from rfl, short_ids (width_dvd long) hk hp hh hv mask' hids]
    unfold readIds at e
    simp only [padded_length] at e
    rw [if_neg (by simp), if_neg (show ¬ ((f.ids.length : Int) < 0) by omega), if_neg (by omega), if_neg (by omega)] at e
    rw [← e]
    congr 1
    rw [show (0 : Int).toNat = 0 from rfl, List.drop_zero, show ((f.ids.length : Int) - 0).toNat = (padded k f).ids.length by rw [padded_length]; omega,
      List.take_length]

/-- C62. Nothing is read in a format the program does not know. -/
theorem C62_unknown_format (le : Bool) (fmt : String) (mask : BitVec 64) (rankStyle : Bool) (P : Nat) (dir : GroupDir)
    (h : ∀ v3 long, fmt ≠ formatName v3 long) : ∀ out, loadGroupFiles le fmt mask rankStyle P dir ≠ .ok out := by
  intro out e
  unfold loadGroupFiles at e
  obtain ⟨info, _, e⟩ := bind_eq_ok e
  rw [if_neg (fun c => c.elim (h false false) (h true false)), if_neg (fun c => c.elim (h false true) (h true true))] at e
  cases e

/-! ## A catalogue that meets the hypotheses -/

/-- Two files with groups of 2, 0 and 3 particles; the third group begins in the first file. -/
def twoFiles : List (RawGroups 64) :=
  [{ lens := [2, 0], offsets := [0, 2], ids := [7, 9, 11], totGroups := 3, totIds := 5, nsub := 1, totNsub := 2, before := 0, rest := [1#8] },
   { lens := [3], offsets := [2], ids := [4, 2], totGroups := 3, totIds := 5, nsub := 1, totNsub := 2, before := 3, rest := [] }]

/-- They are numbered `group_tab` files of version 3 in byte order `fe`. -/
def twoDir (fe : Bool) : GroupDir :=
  ⟨fun q k i => if q = .fofGroups then match i with
      | none => none
      | some j => match twoFiles[j]? with
        | none => none
        | some f => some (if k = .tab then tabBytes fe true false 2 f else idsBytes fe true 2 f)
    else none, fun q => if q = .fofGroups then 2 else 0⟩

example (fe : Bool) : Stored (twoDir fe) .fofGroups fe true twoFiles := by
  refine ⟨?_, by decide, by intro _; rfl, ?_, ?_⟩
  · intro q hq
    have : q = .subGroups := by cases q <;> simp [Place.all] at hq ⊢
    subst this
    rfl
  · intro i f h
    have e : twoFiles.length = 2 := rfl
    simp [twoDir, Place.number, Place.numbered, Place.sub, h, e]
  · intro i f h
    have e : twoFiles.length = 2 := rfl
    simp [twoDir, Place.number, Place.numbered, h, e]

example : ∀ f ∈ twoFiles, f.WellFormed := by
  intro f hf
  have : f = twoFiles[0] ∨ f = twoFiles[1] := by simpa [twoFiles] using hf
  rcases this with rfl | rfl <;> exact ⟨by decide, by decide, by decide, by decide⟩

example : (twoFiles.map RawGroups.lens).flatten.sum = (twoFiles.map RawGroups.ids).flatten.length := by decide

example : (match loadGroupFiles true "gadget3_long" 0 false 2 (twoDir false) with
    | .ok out => some (out 0, out 1)
    | _ => none) = some ([(0, [7, 9])], [(1, []), (2, [11, 4, 2])]) := by decide +kernel

/-- One flat pair of files of version 2 with ids of 32 bits; `cut` bytes are missing at the end of the `ids` file and `more` are appended. -/
def oneDir (cut : Nat) (more : List Byte) : GroupDir :=
  let f : RawGroups 32 := { lens := [2, 1], offsets := [0, 2], ids := [7, 9, 11], totGroups := 2, totIds := 3, nsub := 0, totNsub := 0, before := 0, rest := [] }
  ⟨fun q k i => if q = .subFlat ∧ i = none then
      some (if k = .tab then tabBytes true false true 1 f else (idsBytes true false 1 f).take ((idsBytes true false 1 f).length - cut) ++ more)
    else none, fun _ => 0⟩

example : (match loadGroupFiles true "gadget2_int" 0 false 1 (oneDir 0 []) with
    | .ok out => some (out 0)
    | _ => none) = some [(0, [7, 9]), (1, [11])] := by decide +kernel

/-- The third id is missing. -/
example : (match loadGroupFiles true "gadget2_int" 0 false 1 (oneDir 4 []) with
    | .ok out => some (out 0)
    | _ => none) = some [(0, [7, 9]), (1, [0])] := by decide +kernel

example : (match loadGroupFiles true "gadget2_int" 0 false 1 (oneDir 0 [1#8]) with
    | .abort => true
    | _ => false) = true := by decide +kernel

/-- One file with number 0. -/
example : (match loadGroupFiles true "gadget2_int" 0 false 1
      ⟨fun q k i => if q = .fofGroups ∧ i = some 0 then (oneDir 0 []).file .subFlat k none else none, fun _ => 1⟩ with
    | .ub => true
    | _ => false) = true := by decide +kernel

/-- A second file is missing. -/
example : (match loadGroupFiles false "gadget3_long" 0 false 1 { twoDir true with count := fun _ => 1 } with
    | .abort => true
    | _ => false) = true := by decide +kernel

end HBT.Props
