import Verif.Model.Virial
import Verif.Spec.VirialFile
import Verif.Props.GroupBytes
/-!
# C74: masses and radii of groups
-/
namespace HBT.Props
open HBT HBT.Model HBT.Spec HBT.GS HBT.GroupBytes
variable {w wi : Nat}

/-- The number of a kind. -/
def kindNumber : VirKind → Nat
  | .mean200 => 0
  | .crit200 => 1
  | .topHat => 2

theorem virType_name (k : VirKind) : virType k.name = .ok (kindNumber k) := by cases k <;> rfl

theorem decodeVirHead_ok (le v3 : Bool) (n : Nat) (f : RawGroups wi) (hf : f.WellFormed) (hn : n < 2 ^ 31) :
    decodeVirHead le v3 (tabWords le v3 true n f) = .ok ((f.lens.length : Int), f.totGroups.toInt, (n : Int), f.nsub.toInt) := by
  unfold tabWords
  cases v3 <;> simp [decodeVirHead, word32_bytes32, ofNat_toInt hf.groups, ofNat_toInt hn]

theorem tab_format_le (le v3 : Bool) (n : Nat) (f : RawGroups wi) :
    List.Forall₂ (fun (ws : List (List Byte)) (mn : Nat × Nat) => ws.length = mn.2 ∧ ∀ x ∈ ws, x.length = mn.1) (tabWords le v3 true n f) (tabFormat v3 true) :=
  tabWords_format le v3 true n f

/-- Where the arrays of a kind are. -/
theorem at_arrays {c : List Byte} {fl : File} {fe v3 : Bool} {f : RawGroups wi} {d : VirialData w} (hf : f.WellFormed) (hd : VirialFits fe v3 f d) (le : Bool)
    (hat : At c fl (((f.lens.map (fun l => bytes32 le (BitVec.ofNat 32 l))).map (inOrder fe le)).flatten ++
        (((f.offsets.map (bytes32 le)).map (inOrder fe le)).flatten ++ f.rest))) (k : VirKind) :
    ∃ rest, At c ((fl.seekCur (if v3 then (4 * 2 + (w / 8 : Nat) * 4) * (f.lens.length : Int) else 4 * (2 * (f.lens.length : Int) + 3 * (f.nsub.toNat : Int)))).seekCur
        ((w / 8 : Nat) * (f.lens.length : Int) * 2 * (kindNumber k : Nat)))
      ((((d.mass k).map (wordBytes le)).map (inOrder fe le)).flatten ++ ((((d.radius k).map (wordBytes le)).map (inOrder fe le)).flatten ++ rest)) := by
  have l1 : (((f.lens.map (fun l => bytes32 le (BitVec.ofNat 32 l))).map (inOrder fe le)).flatten).length = 4 * f.lens.length := by
    rw [List.length_flatten]
    simp [Function.comp_def, inOrder_length, bytes32_length, Nat.mul_comm]
  have l2 : (((f.offsets.map (bytes32 le)).map (inOrder fe le)).flatten).length = 4 * f.lens.length := by
    rw [List.length_flatten, ← hf.offsets]
    simp [Function.comp_def, inOrder_length, bytes32_length, Nat.mul_comm]
  obtain ⟨x, hx⟩ : ∃ x, x = (if v3 then d.massPos.flatMap (wordBytes fe) else d.subs.flatMap (bytes32 fe)) := ⟨_, rfl⟩
  have l3 : (x.length : Int) = if v3 then (w / 8 : Nat) * (4 * (f.lens.length : Int)) else 4 * (3 * (f.nsub.toNat : Int)) := by
    rw [hx]
    cases v3
    · have : (d.subs.flatMap (bytes32 fe)).length = 4 * d.subs.length := by
        rw [List.length_flatMap]; simp [bytes32_length, Nat.mul_comm]
      simp only [Bool.false_eq_true, if_false]
      rw [this, (hd.subs rfl).1]; push_cast; ring
    · simp only [if_true]
      rw [flatMap_words_length, hd.massPos rfl]; push_cast; ring
  rw [hd.rest, virialRest, ← hx] at hat
  simp only [List.append_assoc] at hat
  rw [← List.append_assoc, ← List.append_assoc] at hat
  have h1 := At_seek hat (if v3 then (4 * 2 + (w / 8 : Nat) * 4) * (f.lens.length : Int) else 4 * (2 * (f.lens.length : Int) + 3 * (f.nsub.toNat : Int))) (by
    rw [List.length_append, List.length_append, l1, l2]
    push_cast
    rw [l3]
    cases v3
    · simp only [Bool.false_eq_true, if_false]; ring
    · simp only [if_true]; push_cast; ring)
  simp only [words_flatMap]
  have lm : ∀ k, ((d.mass k).flatMap (wordBytes fe)).length = w / 8 * f.lens.length := fun k => by rw [flatMap_words_length, hd.mass]
  have lr : ∀ k, ((d.radius k).flatMap (wordBytes fe)).length = w / 8 * f.lens.length := fun k => by rw [flatMap_words_length, hd.radius]
  cases k
  · refine ⟨_, At_seek (a := []) h1 _ ?_⟩
    simp [kindNumber]
  · rw [← List.append_assoc] at h1
    refine ⟨_, At_seek h1 _ ?_⟩
    rw [List.length_append, lm, lr]; simp only [kindNumber]; push_cast; ring
  · rw [← List.append_assoc, ← List.append_assoc, ← List.append_assoc] at h1
    refine ⟨_, At_seek h1 _ ?_⟩
    rw [List.length_append, List.length_append, List.length_append, lm, lr, lm, lr]; simp only [kindNumber]; push_cast; ring

theorem map_words (hw : 8 ∣ w) (le : Bool) (l : List (BitVec w)) : (l.map (wordBytes le)).map (fun x => BitVec.ofNat w (loadNat le x)) = l := by
  rw [List.map_map]
  conv_rhs => rw [← List.map_id l]
  exact List.map_congr_left (fun x _ => loadNat_wordBytes hw le x)

variable {dir : GroupDir} {p : Place} {fe le v3 : Bool} {files : List (RawGroups wi)} {info : GroupInfo} {fmt : String}

/-- Up to the arrays of one file. -/
theorem virFile_head (h : Here dir p fe le v3 files info) (hp : p.sub = true) (hv : isGroupV3 fmt = v3) {i : Nat} {f : RawGroups wi} (hi : files[i]? = some f)
    {d : VirialData w} (hd : VirialFits fe v3 f d) (hsub : f.nsub.toNat < 2 ^ 31) (k : VirKind) :
    ∃ c fl rest, (∀ b : Option (VirBuf w), readVirFile w le fmt (kindNumber k) dir info i b = (do
        let b ← virResize f.totGroups.toInt b
        readVirArrays w le (fe != le) f.lens.length fl b)) ∧
      At c fl ((((d.mass k).map (wordBytes le)).map (inOrder fe le)).flatten ++ ((((d.radius k).map (wordBytes le)).map (inOrder fe le)).flatten ++ rest)) := by
  have hf := h.ok f (List.mem_of_getElem? hi)
  have hat2 : At (tabBytes fe v3 p.sub files.length f) ⟨tabBytes fe v3 p.sub files.length f, 0⟩
      (((tabWords le v3 p.sub files.length f).map (fun ws => (ws.map (inOrder fe le)).flatten)).flatten ++
      (((f.lens.map (fun l => bytes32 le (BitVec.ofNat 32 l))).map (inOrder fe le)).flatten ++
        (((f.offsets.map (bytes32 le)).map (inOrder fe le)).flatten ++ f.rest))) :=
    ⟨[], by rw [List.nil_append]; exact tabBytes_words fe le _ _ _ f, rfl⟩
  obtain ⟨fl, e, hat3⟩ := readMembers_words fe le _ _ (tabWords_format le v3 p.sub files.length f) _ _ _ hat2
  obtain ⟨rest, hat4⟩ := at_arrays hf hd le hat3 k
  refine ⟨_, _, rest, fun b => ?_, hat4⟩
  have hns : f.nsub.toInt = (f.nsub.toNat : Int) := BitVec.toInt_eq_toNat_of_lt (by omega)
  unfold readVirFile
  rw [open_ok h .tab (h.stored.tab i f hi), Outcome.bind_ok, hv, h.info_]
  simp only
  rw [hp] at e
  rw [hp, e, Outcome.bind_ok]
  simp only
  rw [decodeVirHead_ok le v3 files.length f hf h.small, Outcome.bind_ok]
  simp only
  rw [if_neg (by simp)]
  congr 1
  funext b'
  rw [if_neg (by rw [hns]; omega), if_neg (by
    rintro ⟨h1, h2⟩
    have := (hd.subs h1).2
    rw [hns] at h2
    omega), hns]
  simp

/-- What is loaded after some of the files. -/
def loadedSoFar (total : Nat) (m r : List (BitVec w)) : VirBuf w :=
  ⟨total, m ++ List.replicate (total - m.length) 0, r ++ List.replicate (total - r.length) 0, m.length⟩

theorem putAt_append (a x : List (BitVec w)) (total : Nat) (h : a.length + x.length ≤ total) :
    putAt (a ++ List.replicate (total - a.length) 0) a.length x = (a ++ x) ++ List.replicate (total - (a ++ x).length) 0 := by
  unfold putAt
  rw [List.take_left', List.drop_append, List.drop_eq_nil_of_le (by omega), List.nil_append, List.drop_replicate, List.length_append]
  · congr 2; omega
  · rfl

theorem virArrays_ok (hw : 8 ∣ w) {c : List Byte} {fl : File} {m r : List (BitVec w)} {rest : List Byte} (n : Nat) (hm : m.length = n) (hr : r.length = n)
    (hat : At c fl (((m.map (wordBytes le)).map (inOrder fe le)).flatten ++ (((r.map (wordBytes le)).map (inOrder fe le)).flatten ++ rest)))
    {total : Nat} {a b : List (BitVec w)} (hab : b.length = a.length) (hfit : a.length + n ≤ total) :
    readVirArrays w le (fe != le) n fl (loadedSoFar total a b) = .ok (loadedSoFar total (a ++ m) (b ++ r)) := by
  obtain ⟨f1, e1, hat⟩ := fread_ok (w / 8) n _ (by rw [List.length_map, hm]) (fun x hx => by
    obtain ⟨y, _, rfl⟩ := List.mem_map.1 hx; exact wordBytes_length _ _) _ _ _ hat
  obtain ⟨f2, e2, _⟩ := fread_ok (w / 8) n _ (by rw [List.length_map, hr]) (fun x hx => by
    obtain ⟨y, _, rfl⟩ := List.mem_map.1 hx; exact wordBytes_length _ _) _ _ _ hat
  unfold readVirArrays
  rw [if_neg (by unfold loadedSoFar; simp only [List.length_append, List.length_replicate]; omega), e1, Outcome.bind_ok]
  simp only
  rw [e2, Outcome.bind_ok]
  simp only
  rw [map_words hw, map_words hw]
  unfold loadedSoFar
  simp only
  rw [putAt_append a m total (by omega)]
  conv_lhs => rw [← hab]
  rw [putAt_append b r total (by omega), List.length_append, hm, hab]

/-- The remaining files. -/
theorem virFiles_ok (hw : 8 ∣ w) (h : Here dir p fe le v3 files info) (hp : p.sub = true) (hv : isGroupV3 fmt = v3) (k : VirKind)
    (data : List (VirialData w)) (hd : List.Forall₂ (VirialFits fe v3) files data) (hsub : ∀ f ∈ files, f.nsub.toNat < 2 ^ 31) (total : Nat)
    (htot : (files.map (fun f => f.lens.length)).sum ≤ total) :
    ∀ (n i : Nat), i + n = files.length → ∀ (m r : List (BitVec w)), m = ((data.take i).map (fun d => d.mass k)).flatten → r = ((data.take i).map (fun d => d.radius k)).flatten →
      readVirFiles w le fmt (kindNumber k) dir info n i (some (loadedSoFar total m r)) =
        .ok (some (loadedSoFar total (data.map (fun d => d.mass k)).flatten (data.map (fun d => d.radius k)).flatten))
  | 0, i, hi, m, r, hm, hr => by
    have hl := hd.length_eq
    rw [readVirFiles, hm, hr, List.take_of_length_le (by omega)]
  | n + 1, i, hi, m, r, hm, hr => by
    have hl := hd.length_eq
    have hi' : i < files.length := by omega
    have hg : files[i]? = some files[i] := List.getElem?_eq_getElem hi'
    have hfd : VirialFits fe v3 files[i] data[i] := hd.get hi' (by omega)
    have hsum : ∀ (g : VirialData w → List (BitVec w)), (∀ j (hj : j < files.length), (g data[j]).length = files[j].lens.length) →
        ∀ j, j ≤ files.length → (((data.take j).map g).flatten).length = ((files.take j).map (fun f => f.lens.length)).sum := by
      intro g hg j hj
      rw [List.length_flatten, List.map_map, List.map_take, List.map_take]
      congr 2
      refine List.ext_getElem (by simp [hl]) (fun t h1 h2 => ?_)
      simp only [List.getElem_map, Function.comp_apply]
      exact hg t (by simpa using h2)
    have hM := hsum (fun d => d.mass k) (fun j hj => (hd.get hj (by omega)).mass k)
    have hR := hsum (fun d => d.radius k) (fun j hj => (hd.get hj (by omega)).radius k)
    obtain ⟨c, fl, rest, e, hat⟩ := virFile_head h hp hv hg hfd (hsub _ (List.getElem_mem hi')) k
    have hle : ((files.take (i + 1)).map (fun f => f.lens.length)).sum ≤ total := by
      refine le_trans ?_ htot
      conv_rhs => rw [← List.take_append_drop (i + 1) files, List.map_append, List.sum_append]
      omega
    rw [List.take_succ_eq_append_getElem hi', List.map_append, List.sum_append, ← hM i (by omega), ← hm] at hle
    simp only [List.map_cons, List.map_nil, List.sum_cons, List.sum_nil] at hle
    rw [readVirFiles, e, virResize, Outcome.bind_ok, virArrays_ok hw _ (hfd.mass k) (hfd.radius k) hat (by rw [hm, hr, hM i (by omega), hR i (by omega)]) (by omega), Outcome.bind_ok]
    refine virFiles_ok hw h hp hv k data hd hsub total htot n (i + 1) (by omega) _ _ ?_ ?_
    · rw [hm, List.take_succ_eq_append_getElem (by omega : i < data.length), List.map_append, List.flatten_append]; simp
    · rw [hr, List.take_succ_eq_append_getElem (by omega : i < data.length), List.map_append, List.flatten_append]; simp

/-- All files, with at least as many groups announced by the first one as there are. -/
theorem loadVirial_eq (hw : 8 ∣ w) (le fe v3 long : Bool) (dir : GroupDir) (p : Place) (hp : p.sub = true)
    (files : List (RawGroups (idWidth long))) (hs : Stored dir p fe v3 files) (hok : ∀ f ∈ files, f.WellFormed) (hn : files.length < 2 ^ 16)
    (data : List (VirialData w)) (hd : List.Forall₂ (VirialFits fe v3) files data) (hsub : ∀ f ∈ files, f.nsub.toNat < 2 ^ 31)
    (total : Nat) (htot : ∀ f, files.head? = some f → f.totGroups.toInt = total) (htotal : (files.map (fun f => f.lens.length)).sum ≤ total) (k : VirKind) :
    loadVirial w le (formatName v3 long) dir k.name = if (files.map (fun f => f.lens.length)).sum ≠ total then .abort else
      .ok ((data.map (fun d => d.mass k)).flatten, (data.map (fun d => d.radius k)).flatten) := by
  obtain ⟨info, hf, hh⟩ := here_found (le := le) hs hok hn
  have hv := isV3_name v3 long
  have hl := hd.length_eq
  have hpos : 0 < files.length := by have := hs.several; split at this <;> omega
  have hpl : info.place = p := by rw [hh.info_]
  have hcnt : info.count = files.length := by rw [hh.info_]
  have hstart : readVirFiles w le (formatName v3 long) (kindNumber k) dir info info.count 0 none =
      readVirFiles w le (formatName v3 long) (kindNumber k) dir info info.count 0 (some (loadedSoFar total [] [])) := by
    rw [hcnt]
    obtain ⟨n, hn'⟩ : ∃ n, files.length = n + 1 := ⟨files.length - 1, by omega⟩
    rw [hn', readVirFiles, readVirFiles]
    have hg : files[0]? = some files[0] := List.getElem?_eq_getElem hpos
    have hfd : VirialFits fe v3 files[0] data[0] := hd.get hpos (by omega)
    have hsub0 := hsub _ (List.getElem_mem hpos)
    have key : readVirFile w le (formatName v3 long) (kindNumber k) dir info 0 none =
        readVirFile w le (formatName v3 long) (kindNumber k) dir info 0 (some (loadedSoFar total [] [])) := by
      obtain ⟨c, fl, rest, e, _⟩ := virFile_head hh hp hv hg hfd hsub0 k
      have hr : virResize (w := w) files[0].totGroups.toInt none = .ok (loadedSoFar total [] []) := by
        rw [htot _ (by rw [List.head?_eq_getElem?]; exact hg), virResize, if_neg (by omega)]
        rfl
      rw [e, e, hr]
      rfl
    rw [key]
  unfold loadVirial
  rw [virType_name, Outcome.bind_ok, hf, Outcome.bind_ok, hpl, if_neg (by rw [hp]; simp), hstart, hcnt,
    virFiles_ok hw hh hp hv k data hd hsub total htotal files.length 0 (by omega) [] [] (by simp) (by simp), Outcome.bind_ok]
  have hlen : ∀ (g : VirialData w → List (BitVec w)), (∀ j (hj : j < files.length), (g data[j]).length = files[j].lens.length) →
      ((data.map g).flatten).length = (files.map (fun f => f.lens.length)).sum := by
    intro g hg
    rw [List.length_flatten, List.map_map]
    congr 1
    refine List.ext_getElem (by simp [hl]) (fun t h1 h2 => ?_)
    simp only [List.getElem_map, Function.comp_apply]
    exact hg t (by simpa using h2)
  have h1 := hlen (fun d => d.mass k) (fun j hj => (hd.get hj (by omega)).mass k)
  have h2 := hlen (fun d => d.radius k) (fun j hj => (hd.get hj (by omega)).radius k)
  unfold loadedSoFar
  simp only
  rw [h1]
  by_cases hc : (files.map (fun f => f.lens.length)).sum = total
  · rw [if_neg (by rw [hc]; simp), if_neg (by rw [hc]; simp), h2, hc]
    simp
  · rw [if_pos hc, if_pos hc]

/-- C74. `LoadVirial` reads the masses and radii of the groups, of the kind that is asked for, from the files of `subfind`, of either version and byte order, in any number of files, on
hosts of either byte order, as `float` or `double`: those of the groups of the first file, then of the second, and so on. -/
theorem C74_virial (hw : 8 ∣ w) (le fe v3 long : Bool) (dir : GroupDir) (p : Place) (hp : p.sub = true)
    (files : List (RawGroups (idWidth long))) (hs : Stored dir p fe v3 files) (hok : ∀ f ∈ files, f.WellFormed) (hn : files.length < 2 ^ 16)
    (data : List (VirialData w)) (hd : List.Forall₂ (VirialFits fe v3) files data) (hsub : ∀ f ∈ files, f.nsub.toNat < 2 ^ 31)
    (htot : ∀ f ∈ files, f.totGroups.toInt = ((files.map (fun f => f.lens.length)).sum : Nat)) (k : VirKind) :
    loadVirial w le (formatName v3 long) dir k.name = .ok ((data.map (fun d => d.mass k)).flatten, (data.map (fun d => d.radius k)).flatten) := by
  rw [loadVirial_eq hw le fe v3 long dir p hp files hs hok hn data hd hsub _ (fun f hf => htot f (List.mem_of_mem_head? hf)) (le_refl _) k, if_neg (by simp)]

/-- C74. A catalogue with fewer groups than its first file announces is refused. -/
theorem C74_fewer_groups_than_announced (hw : 8 ∣ w) (le fe v3 long : Bool) (dir : GroupDir) (p : Place) (hp : p.sub = true)
    (files : List (RawGroups (idWidth long))) (hs : Stored dir p fe v3 files) (hok : ∀ f ∈ files, f.WellFormed) (hn : files.length < 2 ^ 16)
    (data : List (VirialData w)) (hd : List.Forall₂ (VirialFits fe v3) files data) (hsub : ∀ f ∈ files, f.nsub.toNat < 2 ^ 31)
    (total : Nat) (htot : ∀ f, files.head? = some f → f.totGroups.toInt = total) (hless : (files.map (fun f => f.lens.length)).sum < total) (k : VirKind) :
    loadVirial w le (formatName v3 long) dir k.name = .abort := by
  rw [loadVirial_eq hw le fe v3 long dir p hp files hs hok hn data hd hsub total htot (le_of_lt hless) k, if_pos (by omega)]

/-- C74. Other names of kinds are refused. -/
theorem C74_unknown_kind (le : Bool) (fmt : String) (dir : GroupDir) (virtype : String) (h : ∀ k : VirKind, virtype ≠ k.name) :
    loadVirial w le fmt dir virtype = .abort := by
  have h0 : virtype ≠ "Mean200" := h .mean200
  have h1 : virtype ≠ "Crit200" := h .crit200
  have h2 : virtype ≠ "TopHat" := h .topHat
  unfold loadVirial virType
  rw [if_neg h0, if_neg h1, if_neg h2]
  rfl

/-- C74. So are catalogues of a group finder without masses and radii. -/
theorem C74_not_subfind (le fe v3 long : Bool) (dir : GroupDir) (p : Place) (hp : p.sub = false)
    (files : List (RawGroups (idWidth long))) (hs : Stored dir p fe v3 files) (hok : ∀ f ∈ files, f.WellFormed) (hn : files.length < 2 ^ 16) (virtype : String) :
    loadVirial w le (formatName v3 long) dir virtype = .abort := by
  obtain ⟨info, hf, hh⟩ := here_found (le := le) hs hok hn
  have hpl : info.place = p := by rw [hh.info_]
  unfold loadVirial
  have : (∃ n, virType virtype = .ok n) ∨ virType virtype = .abort := by
    unfold virType
    split_ifs <;> first | exact Or.inl ⟨_, rfl⟩ | exact Or.inr rfl
  rcases this with ⟨n, e⟩ | e
  · rw [e, Outcome.bind_ok, hf, Outcome.bind_ok, hpl, if_pos hp]
  · rw [e]; rfl

/-- C74, finding. The vectors get their size from the number of groups that the first file announces, and later files are read into them before
this number is compared with what was read: a catalogue with more groups than announced is written beyond the end of the vectors. -/
theorem C74_more_groups_than_announced (hw : 8 ∣ w) (le fe v3 long : Bool) (dir : GroupDir) (p : Place) (hp : p.sub = true)
    (f : RawGroups (idWidth long)) (g : List (RawGroups (idWidth long))) (hs : Stored dir p fe v3 (f :: g)) (hok : ∀ x ∈ f :: g, x.WellFormed) (hn : (f :: g).length < 2 ^ 16)
    (d : VirialData w) (hd : VirialFits fe v3 f d) (hsub : f.nsub.toNat < 2 ^ 31) (hpos : 0 ≤ f.totGroups.toInt) (hmore : f.totGroups.toInt < f.lens.length) (k : VirKind) :
    loadVirial w le (formatName v3 long) dir k.name = .ub := by
  obtain ⟨info, hf, hh⟩ := here_found (le := le) hs hok hn
  have hpl : info.place = p := by rw [hh.info_]
  have hcnt : info.count = g.length + 1 := by rw [hh.info_]; rfl
  obtain ⟨c, fl, rest, e, _⟩ := virFile_head hh hp (isV3_name v3 long) (i := 0) rfl hd hsub k
  unfold loadVirial
  rw [virType_name, Outcome.bind_ok, hf, Outcome.bind_ok, hpl, if_neg (by rw [hp]; simp), hcnt, readVirFiles, e, virResize, if_neg (by omega), Outcome.bind_ok, readVirArrays,
    if_pos (by simp only [List.length_replicate]; omega)]
  rfl

/-! ## Non-vacuity -/

/-- A catalogue of two files with three groups, version 3, one mass and radius each. -/
def virData : List (VirialData 32) :=
  [⟨[1, 2, 3, 4, 5, 6, 7, 8], [], fun k => match k with | .mean200 => [10, 11] | .crit200 => [20, 21] | .topHat => [30, 31],
      fun k => match k with | .mean200 => [40, 41] | .crit200 => [50, 51] | .topHat => [60, 61], [9#8]⟩,
    ⟨[1, 2, 3, 4], [], fun k => match k with | .mean200 => [12] | .crit200 => [22] | .topHat => [32],
      fun k => match k with | .mean200 => [42] | .crit200 => [52] | .topHat => [62], []⟩]

def virFiles (fe : Bool) : List (RawGroups 64) :=
  [⟨[1, 2], [0, 1], [5, 6, 7], 3, 4, 0, 0, 0, virialRest fe true virData[0]⟩, ⟨[1], [3], [8], 3, 4, 0, 0, 3, virialRest fe true virData[1]⟩]

def virDir (fe : Bool) : GroupDir where
  file p kind n :=
    match p, kind, n with
    | .subGroups, .tab, some i => (virFiles fe)[i]?.map (tabBytes fe true true 2)
    | .subGroups, .ids, some i => (virFiles fe)[i]?.map (idsBytes fe true 2)
    | _, _, _ => none
  count _ := 2

theorem virDir_stored (fe : Bool) : Stored (virDir fe) .subGroups fe true (virFiles fe) := by
  refine ⟨fun q hq => ?_, by simp [Place.numbered, virFiles], fun _ => rfl, fun i f h => ?_, fun i f h => ?_⟩
  · simp [Place.all] at hq
  · show (virFiles fe)[i]?.map _ = _
    rw [h]; rfl
  · show (virFiles fe)[i]?.map _ = _
    rw [h]; rfl

theorem virFiles_ok' (fe : Bool) : (∀ f ∈ virFiles fe, f.WellFormed) ∧ (∀ f ∈ virFiles fe, f.nsub.toNat < 2 ^ 31) ∧
    ∀ f ∈ virFiles fe, f.totGroups.toInt = (((virFiles fe).map (fun f => f.lens.length)).sum : Nat) := by
  refine ⟨fun f hf => ?_, fun f hf => ?_, fun f hf => ?_⟩ <;> rw [virFiles, List.mem_cons, List.mem_singleton] at hf <;> rcases hf with rfl | rfl
  · constructor <;> simp
  · constructor <;> simp
  · show (0 : Nat) < 2 ^ 31; decide
  · show (0 : Nat) < 2 ^ 31; decide
  · rfl
  · rfl

example (fe le : Bool) : loadVirial 32 le "gadget3_long" (virDir fe) "Crit200" = .ok ([20, 21, 22], [50, 51, 52]) := by
  obtain ⟨h1, h2, h3⟩ := virFiles_ok' fe
  refine C74_virial (w := 32) (by decide) le fe true true (virDir fe) .subGroups rfl (virFiles fe) (virDir_stored fe) h1 (show 2 < 2 ^ 16 by decide) virData ?_ h2 h3 .crit200
  refine .cons ⟨rfl, ?_, ?_, ?_, ?_⟩ (.cons ⟨rfl, ?_, ?_, ?_, ?_⟩ .nil) <;> (intro k; cases k <;> rfl)

/-- The same by evaluation. -/
example : loadVirial 32 true "gadget3_long" (virDir false) "TopHat" = .ok ([30, 31, 32], [60, 61, 62]) := by decide +kernel

/-- Version 2: one file, two subhaloes. -/
def virData2 : VirialData 64 :=
  ⟨[], [1, 2, 3, 4, 5, 6], fun k => match k with | .mean200 => [10, 11] | .crit200 => [20, 21] | .topHat => [30, 31],
      fun k => match k with | .mean200 => [40, 41] | .crit200 => [50, 51] | .topHat => [60, 61], []⟩

def virDir2 (fe : Bool) (tot : BitVec 32) : GroupDir where
  file p kind n :=
    match p, kind, n with
    | .subFlat, .tab, none => some (tabBytes (w := 32) fe false true 1 ⟨[1, 2], [0, 1], [5, 6, 7], tot, 3, 2, 2, 0, virialRest fe false virData2⟩)
    | _, _, _ => none
  count _ := 0

example : loadVirial 64 true "gadget2_int" (virDir2 true 2) "Mean200" = .ok ([10, 11], [40, 41]) := by decide +kernel
example : loadVirial 64 true "gadget2_int" (virDir2 true 1) "Mean200" = .ub := by decide +kernel
example : loadVirial 64 true "gadget2_int" (virDir2 true 3) "Mean200" = .abort := by decide +kernel
end HBT.Props
