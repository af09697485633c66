import Verif.Lemmas.Reader
/-!
# C69: reading the catalogues with the Python reader
-/
set_option linter.unusedSectionVars false
namespace HBT.Props
open HBT HBT.Model HBT.Spec HBT.MainLoop
variable {K D E S R : Type}

/-- The catalogue directory after all sessions, as the reader wants it: no combined files; there are only files of the complete
snapshots, each written by `P` processes; and `glob` lists each file once. -/
structure UniformRoot (disks : Int → Disk K D) (hist : List (Σ P, SnapInput K D E S R P)) (P : Nat) (root : SubRoot K D) : Prop where
  multi : root.multi = disks
  single : root.globSingle = []
  nodup : root.globMulti.Nodup
  glob : ∀ i k, (i, k) ∈ root.globMulti ↔ (disks i).sub k ≠ none
  procs : ∀ x ∈ hist, x.1 = P
  only : ∀ i k, (disks i).sub k ≠ none → (∃ x ∈ hist, x.2.snap = i) ∧ k < P

theorem foldl_max_spec (l : List Int) (a : Int) : l.foldl max a ∈ a :: l ∧ ∀ x ∈ a :: l, x ≤ l.foldl max a := by
  induction l generalizing a with
  | nil => simp
  | cons b l ih =>
    obtain ⟨h1, h2⟩ := ih (max a b)
    rw [List.foldl_cons]
    constructor
    · rcases List.mem_cons.1 h1 with h | h
      · rw [h]
        rcases max_choice a b with h' | h' <;> rw [h'] <;> simp
      · simp [h]
    · intro x hx
      have hm := h2 (max a b) (by simp)
      simp only [List.mem_cons] at hx
      rcases hx with rfl | rfl | hx
      · exact le_trans (le_max_left _ _) hm
      · exact le_trans (le_max_right _ _) hm
      · exact h2 x (by simp [hx])

theorem lastSnap_eq {l : List Int} {m : Int} (h1 : m ∈ l) (h2 : ∀ x ∈ l, x ≤ m) : lastSnap l = some m := by
  cases l with
  | nil => cases h1
  | cons a l =>
    obtain ⟨h3, h4⟩ := foldl_max_spec l a
    rw [lastSnap]
    congr 1
    exact le_antisymm (h2 _ h3) (h4 _ h1)

variable [LinearOrder K] [MassSum K] [LinearOrder E] [Zero E]

theorem histSnap_get {m : Int} {hist : List (Σ P, SnapInput K D E S R P)} (h : Numbered m hist) {k : Nat} (hk : k < hist.length) :
    hist[k].2.snap = m + (hist.length - 1 - k : Nat) := by
  have := h.drop k
  rw [List.drop_eq_getElem_cons hk] at this
  rw [this.1, List.length_drop]
  congr 2
  omega

/-- What is known of the snapshot number `k` from the end. -/
theorem archive_get {b : Build K D S} {sim : Int → List Int} {disks : Int → Disk K D}
    {hist : List (Σ P, SnapInput K D E S R P)} {tr : List (Σ P, Snapshot K D E P)} (ha : Archive b sim disks hist tr)
    {k : Nat} {y : Σ P, Snapshot K D E P} (hy : tr[k]? = some y) :
    ∃ h1 : k < hist.length, 0 < y.1 ∧ hist[k].1 = y.1 ∧ y.2.snap = b.minIndex + (hist.length - 1 - k : Nat) ∧
      hist[k].2.snap = y.2.snap ∧ Holds (b.snapId y.2.snap) y.2.out (disks y.2.snap) := by
  obtain ⟨h2, e2⟩ := List.getElem?_eq_some_iff.1 hy
  have h1 : k < hist.length := by rw [ha.kept.length_eq]; exact h2
  have hst : Stored b sim disks hist[k] tr[k] := (List.forall₂_iff_get.1 ha.kept).2 k h1 h2
  have hn := histSnap_get ha.numbered h1
  obtain ⟨Q, w, d, e3, e4, hQ, hsnap, hold, _⟩ := hst
  rw [e4] at e2
  subst e2
  refine ⟨h1, hQ, by rw [e3], ?_, by rw [e3]; exact hsnap.symm, ?_⟩
  · show d.snap = _
    rw [e3] at hn
    rw [hsnap]; exact hn
  · show Holds (b.snapId d.snap) d.out (disks d.snap)
    rw [hsnap]; exact hold

/-- The reader opened on such a directory. -/
theorem reader_opens {b : Build K D S} {sim : Int → List Int} {disks : Int → Disk K D}
    {hist : List (Σ P, SnapInput K D E S R P)} {tr : List (Σ P, Snapshot K D E P)} (ha : Archive b sim disks hist tr) (hne : hist ≠ [])
    {P : Nat} {root : SubRoot K D} (hr : UniformRoot disks hist P root) :
    0 < P ∧ openReader root = .ok ⟨b.minIndex + (hist.length - 1 : Nat), P⟩ := by
  have hpos : 0 < hist.length := List.length_pos_iff.2 hne
  have h0 : 0 < tr.length := by rw [← ha.kept.length_eq]; exact hpos
  obtain ⟨h1, hQ, e1, e2, e3, hh⟩ := archive_get ha (List.getElem?_eq_getElem h0)
  rw [Nat.sub_zero] at e2
  have hP : hist[0].1 = P := hr.procs _ (List.getElem_mem h1)
  rw [e1] at hP
  obtain ⟨y, hy⟩ : ∃ y, y = tr[0] := ⟨_, rfl⟩
  rw [← hy] at hQ e2 hh hP
  obtain ⟨Q, d⟩ := y
  simp only at hP hQ e2 hh
  subst hP
  refine ⟨hQ, ?_⟩
  obtain ⟨m, hm⟩ : ∃ m, m = b.minIndex + ((hist.length - 1 : Nat) : Int) := ⟨_, rfl⟩
  rw [← hm] at e2 ⊢
  rw [e2] at hh
  have hmem : ∀ k, (m, k) ∈ root.globMulti ↔ k < Q := by
    intro k
    rw [hr.glob]
    constructor
    · exact fun h => (hr.only m k h).2
    · intro hk
      rw [hh.sub ⟨k, hk⟩]
      simp
  have hlast : lastSnap (root.globMulti.map Prod.fst) = some m := by
    apply lastSnap_eq
    · exact List.mem_map.2 ⟨(m, 0), (hmem 0).2 hQ, rfl⟩
    · intro i hi
      obtain ⟨⟨i', k⟩, hik, rfl⟩ := List.mem_map.1 hi
      obtain ⟨⟨x, hx, ex⟩, _⟩ := hr.only i' k ((hr.glob i' k).1 hik)
      have := (ha.numbered.lt x hx).2
      show i' ≤ m
      omega
  have hcount : (root.globMulti.filter (fun x => x.1 = m)).length = Q := by
    have hp : (root.globMulti.filter (fun x => x.1 = m)).Perm ((List.range Q).map (fun k => (m, k))) := by
      rw [List.perm_ext_iff_of_nodup (hr.nodup.filter _) (List.nodup_range.map (fun a b h => (Prod.mk.inj h).2))]
      rintro ⟨i, k⟩
      rw [List.mem_filter, List.mem_map]
      constructor
      · rintro ⟨h1, h2⟩
        have : i = m := by simpa using h2
        subst this
        exact ⟨k, List.mem_range.2 ((hmem k).1 h1), rfl⟩
      · rintro ⟨k', hk', e⟩
        cases e
        exact ⟨(hmem k).2 (List.mem_range.1 hk'), by simp⟩
    rw [hp.length_eq, List.length_map, List.length_range]
  have hfind : findLast root = .ok ⟨m, Q⟩ := by
    rw [findLast, hr.single]
    show (match lastSnap (root.globMulti.map Prod.fst) with
      | some m => Outcome.ok (⟨m, (root.globMulti.filter (fun x : Int × Nat => x.1 = m)).length⟩ : Reader)
      | none => Outcome.abort) = _
    rw [hlast]
    simp only [hcount]
  rw [openReader, hfind, Outcome.bind_ok]
  have : openFile root (⟨m, Q⟩ : Reader) (-1) 0 = .ok (fileOf (b.snapId m) d.out ⟨0, hQ⟩) := by
    rw [openFile]
    simp only
    rw [if_pos (show (-1 : Int) < 0 by decide), if_pos (by omega), show m + 1 + -1 = m by omega, hr.multi, hh.sub ⟨0, hQ⟩]
  rw [this, Outcome.bind_ok]

/-- What the reader gives for one snapshot, asked for by the number `isnap`: the table, the lists of nested subhaloes, and the ids of
the bound and of all particles, of the subhaloes `all`, each as a whole and by index (a position beyond the end gives an empty table
and an error for the particles). -/
structure Shows (root : SubRoot K D) (rd : Reader) (isnap : Int) (all : List (Sub K D)) : Prop where
  rows : loadSubhalos root rd isnap = .ok (all.map properties)
  row : ∀ k : Nat, loadSubhalo root rd isnap k = .ok (all[k]?.map properties).toList
  nested : loadNested root rd isnap = .ok (all.map Sub.nested)
  bound : shownParticles root rd false isnap = .ok (all.map (fun s => (s.particles.map Particle.id).take s.nbound))
  source : shownParticles root rd true isnap = .ok (all.map (fun s => s.particles.map Particle.id))
  boundOf : ∀ k : Nat, shownParticlesOf root rd false isnap k =
    (match all[k]? with | some s => .ok ((s.particles.map Particle.id).take s.nbound) | none => .abort)
  sourceOf : ∀ k : Nat, shownParticlesOf root rd true isnap k =
    (match all[k]? with | some s => .ok (s.particles.map Particle.id) | none => .abort)
  /-- by TrackId -/
  sub : ∀ t, getSub root rd t isnap = (match all.find? (fun s => decide (s.trackId = t)) with | some s => .ok [properties s] | none => .abort)

theorem flatten_everyone {α : Type} {P : Nat} (st : Fin P → List (Sub K D)) (f : Sub K D → α) :
    (List.ofFn (fun r => (st r).map f)).flatten = (everyone st).map f := by
  unfold everyone
  rw [List.map_flatten, List.map_ofFn]
  rfl

theorem shows_of_holds {P : Nat} {root : SubRoot K D} {rd : Reader} {isnap i : Int} {snapId : Int} {st : Fin P → List (Sub K D)}
    (hh : Holds snapId st (root.multi i)) (hP : 0 < P) (hn : rd.nfiles = P)
    (hi : i = if isnap < 0 then rd.maxSnap + 1 + isnap else isnap) : Shows root rd isnap (everyone st) := by
  have hf := filesAt_of_holds hh hP hn hi
  have hmax : max rd.nfiles 1 = P := by omega
  have hopen : ∀ r : Fin P, openFile root rd isnap r.val = .ok (fileOf snapId st r) := by
    intro r
    refine hf.2 r.val _ ?_
    rw [List.getElem?_ofFn, dif_pos r.isLt]
  have hlists : ∀ (get : Nat → Outcome (List (List Int))) (f : Sub K D → List Int), (∀ r : Fin P, get r.val = .ok ((st r).map f)) →
      ∀ (k : Nat) (l : List (List Int)), (List.ofFn (fun r => (st r).map f))[k]? = some l → get (0 + k) = .ok l := by
    intro get f hget k l hl
    rw [List.getElem?_ofFn] at hl
    split at hl
    · rename_i hk
      cases hl
      rw [Nat.zero_add]
      exact hget ⟨k, hk⟩
    · cases hl
  have hb : ∀ r : Fin P, openLists root rd false isnap r.val = .ok ((st r).map (fun s => (s.particles.map Particle.id).take s.nbound)) := by
    intro r
    rw [openLists, if_neg (by decide), hopen r, Outcome.bind_ok]
    rfl
  have hs : ∀ r : Fin P, openLists root rd true isnap r.val = .ok ((st r).map (fun s => s.particles.map Particle.id)) := by
    intro r
    rw [openLists, if_pos rfl]
    simp only [← hi]
    rw [if_pos (by omega), hh.src r]
    rfl
  have hnst : ∀ r : Fin P, openNested root rd isnap r.val = .ok ((st r).map Sub.nested) := by
    intro r
    rw [openNested, hopen r, Outcome.bind_ok]
    rfl
  have all : ∀ (get : Nat → Outcome (List (List Int))) (f : Sub K D → List Int), (∀ r : Fin P, get r.val = .ok ((st r).map f)) →
      loadLists get (max rd.nfiles 1) 0 = .ok ((everyone st).map f) := by
    intro get f hget
    have := loadLists_ok (List.ofFn (fun r => (st r).map f)) 0 (hlists get f hget)
    rw [List.length_ofFn] at this
    rw [hmax, this, flatten_everyone]
  have one : ∀ (get : Nat → Outcome (List (List Int))) (f : Sub K D → List Int), (∀ r : Fin P, get r.val = .ok ((st r).map f)) →
      ∀ k : Nat, loadList get k (max rd.nfiles 1) 0 0 = (match (everyone st)[k]? with | some s => .ok (f s) | none => .abort) := by
    intro get f hget k
    have := loadList_ok (List.ofFn (fun r => (st r).map f)) 0 0 k (hlists get f hget)
    rw [List.length_ofFn, Nat.zero_add, flatten_everyone, List.getElem?_map] at this
    rw [hmax]
    refine Eq.trans this ?_
    cases (everyone st)[k]? <;> rfl
  refine ⟨?_, fun k => ?_, all _ _ hnst, all _ _ hb, all _ _ hs, one _ _ hb, one _ _ hs, fun t => ?_⟩
  · rw [loadSubhalos_ok hf, table_everyone]
  · rw [loadSubhalo_ok hf, table_everyone, List.getElem?_map]
  · rw [getSub_ok hf (by omega), table_everyone, List.find?_map]
    have : ((fun s : Sub K D => decide (s.trackId = t)) ∘ properties) = (fun s => decide (s.trackId = t)) := rfl
    rw [this]
    cases (everyone st).find? (fun s => decide (s.trackId = t)) <;> rfl

theorem getTrackRows_ok {root : SubRoot K D} {rd : Reader} {t : Int} : ∀ (vs : List (Int × Sub K D)),
    (∀ v ∈ vs, getSub root rd t v.1 = .ok [properties v.2]) →
    getTrackRows root rd t (vs.map Prod.fst) = .ok (vs.map (fun v => (v.1, properties v.2)))
  | [], _ => rfl
  | v :: vs, h => by
    rw [List.map_cons, getTrackRows, getTrackRow, h v (by simp), Outcome.bind_ok]
    simp only [Outcome.bind_ok]
    rw [getTrackRows_ok vs (fun w hw => h w (by simp [hw])), Outcome.bind_ok]
    rfl

/-- The numbers of the snapshots, the latest first. -/
theorem ends_numbers {b : Build K D S} {sim : Int → List Int} {disks : Int → Disk K D}
    {hist : List (Σ P, SnapInput K D E S R P)} {tr : List (Σ P, Snapshot K D E P)} (ha : Archive b sim disks hist tr) :
    (ends tr).map Prod.fst = (List.range hist.length).map (fun k : Nat => b.minIndex + ((hist.length - 1 : Nat) : Int) - k) := by
  unfold ends
  rw [List.map_map]
  refine List.ext_getElem ?_ fun k h1 h2 => ?_
  · rw [List.length_map, List.length_map, List.length_range, ha.kept.length_eq]
  · rw [List.length_map] at h1
    obtain ⟨h3, _, _, e, _⟩ := archive_get ha (List.getElem?_eq_getElem h1)
    rw [List.getElem_map, List.getElem_map, List.getElem_range]
    show tr[k].2.snap = _
    rw [e]
    omega

/-- The ids of a state of a run are all different. -/
theorem run_ids_nodup {par : Params K D} (hpar : par.Ok) {tr : List (Σ P, Snapshot K D E P)} (h : Run par tr) {y : Σ P, Snapshot K D E P}
    (hy : y ∈ tr) : ((everyone y.2.out).map Sub.trackId).Nodup := by
  obtain ⟨k, hk⟩ := List.getElem?_of_mem hy
  obtain ⟨hlt, e⟩ := List.getElem?_eq_some_iff.1 hk
  have hr := run_drop h k
  rw [List.drop_eq_getElem_cons hlt, e] at hr
  obtain ⟨P, d⟩ := y
  obtain ⟨hf, _⟩ := run_facts hpar hr
  obtain ⟨N, hN⟩ := hf.sound.2.1
  unfold Dense at hN
  rw [allIds_everyone] at hN
  exact hN.nodup_iff.2 (List.nodup_range.map (fun a b h => by simpa using h))

theorem find_unique {l : List (Sub K D)} (h : (l.map Sub.trackId).Nodup) {s : Sub K D} (hs : s ∈ l) :
    l.find? (fun u => decide (u.trackId = s.trackId)) = some s := by
  cases hf : l.find? (fun u => decide (u.trackId = s.trackId)) with
  | none => have := List.find?_eq_none.1 hf s hs; simp at this
  | some u =>
    have h1 := List.find?_some hf
    have h2 := List.mem_of_find?_eq_some hf
    rw [List.inj_on_of_nodup_map h h2 hs (by simpa using h1)]

/-- **C69.** The reader opens the catalogue directory that any sequence of sessions has left (if every snapshot has the same number
of files and nothing else is there), offers exactly the complete snapshots, and shows of each, by its number or counted from the
end, the subhaloes of an uninterrupted run, process after process. The track of each subhalo of the last snapshot is what was seen
of it in every snapshot from its birth to the end, in order. -/
theorem C69_reader {K D E S R : Type} [LinearOrder K] [MassSum K] [Mul K] [LinearOrder R] [LinearOrder E] [Zero E]
    {b : Build K D S} (hb : BuildOk b) (hsum : NonnegSums K) (hm : ∀ p, 0 ≤ b.mass p) {sim : Int → List Int} (hsim : Persistent b sim)
    {disks : Int → Disk K D} {hist : List (Σ P, SnapInput K D E S R P)} (h : Reach b sim disks hist) (hne : hist ≠ [])
    {P : Nat} {root : SubRoot K D} (hr : UniformRoot disks hist P root) :
    ∃ (rd : Reader) (tr : List (Σ P, Snapshot K D E P)), openReader root = .ok rd ∧ Run (params b) tr ∧
      List.Forall₂ (fun x y => x.2.snap = y.2.snap) hist tr ∧
      readerSnapshots b.minIndex rd = (tr.map (fun y => y.2.snap)).reverse ∧
      (∀ (k : Nat) (y : Σ P, Snapshot K D E P), tr[k]? = some y → ∀ isnap : Int, isnap = y.2.snap ∨ isnap = -1 - k →
        Shows root rd isnap (everyone y.2.out)) ∧
      ∀ y : Σ P, Snapshot K D E P, tr.head? = some y → ∀ s ∈ everyone y.2.out,
        getTrack root rd s.trackId = .ok ((visits (ends tr) s.trackId).reverse.map (fun v => (v.1, properties v.2))) := by
  obtain ⟨tr, ha⟩ := reach_archive hb hsim h
  obtain ⟨hP, ho⟩ := reader_opens ha hne hr
  have hpos : 0 < hist.length := List.length_pos_iff.2 hne
  have hpar := params_ok hb
  have hmin := hb.minIndex
  have hnum := ends_numbers ha
  obtain ⟨m, hmdef⟩ : ∃ m, m = b.minIndex + ((hist.length - 1 : Nat) : Int) := ⟨_, rfl⟩
  rw [← hmdef] at ho hnum
  have hshow : ∀ (k : Nat) (y : Σ P, Snapshot K D E P), tr[k]? = some y → ∀ isnap : Int, isnap = y.2.snap ∨ isnap = -1 - k →
      Shows root ⟨m, P⟩ isnap (everyone y.2.out) := by
    intro k y hy isnap hi
    obtain ⟨h1, hQ, e1, e2, e3, hh⟩ := archive_get ha hy
    have hp := hr.procs _ (List.getElem_mem h1)
    rw [← hr.multi] at hh
    refine shows_of_holds hh hQ (by rw [← e1, hp]) ?_
    rcases hi with rfl | rfl
    · rw [if_neg (by omega)]
    · rw [if_pos (by omega), e2]
      simp only
      omega
  have hlen : tr.length = hist.length := ha.kept.length_eq.symm
  refine ⟨⟨m, P⟩, tr, ho, ha.run, ?_, ?_, hshow, ?_⟩
  · rw [List.forall₂_iff_get]
    refine ⟨ha.kept.length_eq, fun k h1 h2 => ?_⟩
    obtain ⟨_, _, _, _, e, _⟩ := archive_get ha (List.getElem?_eq_getElem h2)
    exact e
  · have he : tr.map (fun y => y.2.snap) = (ends tr).map Prod.fst := by
      unfold ends; rw [List.map_map]; rfl
    rw [he, hnum, readerSnapshots]
    refine List.ext_getElem ?_ fun k h1 h2 => ?_
    · simp only [List.length_map, List.length_range, List.length_reverse]; omega
    · simp only [List.length_map, List.length_range, List.length_reverse] at h1 h2
      simp only [List.getElem_map, List.getElem_range, List.getElem_reverse, List.length_map, List.length_range]
      omega
  · intro y hy s hs
    have hy0 : tr[0]? = some y := by rw [← List.head?_eq_getElem?]; exact hy
    obtain ⟨tr', rfl⟩ : ∃ tr', tr = y :: tr' := by
      cases tr with
      | nil => cases hy
      | cons y' tr' => cases hy; exact ⟨tr', rfl⟩
    have hinv := run_inv hpar ha.run
    have hs' : s ∈ everyone (latest (y :: tr')).2 := hs
    have hbirth := (C34_history hpar hsum hm ha.run s hs').birth
    have hid : s.trackId ≠ nullTrack := by
      obtain ⟨N, hN⟩ := hinv.sound.2.1
      unfold Dense at hN
      rw [allIds_everyone] at hN
      have := hN.mem_iff.1 (List.mem_map.2 ⟨s, hs', rfl⟩)
      obtain ⟨j, _, e⟩ := List.mem_map.1 this
      rw [← e]
      unfold nullTrack
      omega
    have hpre := hinv.always s.trackId hid
    obtain ⟨n, rest, _, hfirst, _⟩ := hinv.first s hs'
    obtain ⟨V, hV⟩ : ∃ V, V = visits (ends (y :: tr')) s.trackId := ⟨_, rfl⟩
    rw [← hV] at hbirth hpre hfirst ⊢
    have hVpos : 0 < V.length := by rw [hfirst]; simp
    have hVle : V.length ≤ hist.length := by
      have := hpre.length_le
      rw [hnum] at this
      simpa using this
    have hVfst : V.map Prod.fst = (List.range V.length).map (fun k : Nat => m - k) := by
      rw [List.prefix_iff_eq_take.1 hpre, hnum, List.length_map, ← List.map_take, List.take_range, min_eq_left hVle]
    have hb' : s.snapBirth = m - ((V.length - 1 : Nat) : Int) := by
      have h1 : (V.map Prod.fst).getLast? = some s.snapBirth := by rw [List.getLast?_map]; exact hbirth
      rw [hVfst, List.getLast?_eq_getElem?, List.length_map, List.length_range, List.getElem?_map,
        List.getElem?_range (by omega)] at h1
      simpa using h1.symm
    have hsnaps : readerSnapshots s.snapBirth ⟨m, P⟩ = V.reverse.map Prod.fst := by
      rw [List.map_reverse, hVfst, readerSnapshots, hb']
      refine List.ext_getElem ?_ fun k h1 h2 => ?_
      · simp only [List.length_map, List.length_range, List.length_reverse]; omega
      · simp only [List.length_map, List.length_range, List.length_reverse] at h1 h2
        simp only [List.getElem_map, List.getElem_range, List.getElem_reverse, List.length_map, List.length_range]
        omega
    have hsub := (hshow 0 y hy0 (-1) (Or.inr (by simp))).sub s.trackId
    rw [find_unique (run_ids_nodup hpar ha.run (y := y) (by simp)) hs] at hsub
    rw [getTrack, hsub, Outcome.bind_ok]
    show getTrackRows root ⟨m, P⟩ s.trackId (readerSnapshots s.snapBirth ⟨m, P⟩) = _
    rw [hsnaps]
    refine getTrackRows_ok _ fun v hv => ?_
    have hv' : v ∈ V := List.mem_reverse.1 hv
    rw [hV] at hv'
    unfold visits at hv'
    obtain ⟨x, hx, hvx⟩ := List.mem_flatMap.1 hv'
    obtain ⟨u, hu, rfl⟩ := List.mem_map.1 hvx
    obtain ⟨z, hz, rfl⟩ := List.mem_map.1 hx
    obtain ⟨hu1, hu2⟩ := List.mem_filter.1 hu
    have hut : u.trackId = s.trackId := by simpa using hu2
    obtain ⟨j, hj⟩ := List.getElem?_of_mem hz
    have h3 := (hshow j z hj z.2.snap (Or.inl rfl)).sub s.trackId
    rw [← hut, find_unique (run_ids_nodup hpar ha.run hz) hu1] at h3
    rw [← hut]
    exact h3

end HBT.Props
