import Verif.Model.Hosts
import Verif.Spec.Hosts
import Verif.Props.Centrals
import Verif.Props.Register
import Verif.Props.Member
import Verif.Lemmas.HaloExchange
/-!
# C22: host assignment
-/
namespace HBT.Props
open HBT HBT.Model HBT.Spec
variable {K D : Type}

/-! ## Chunks -/

/-- The ranges `bs` are non-empty, adjacent, start at `a` and end at `b`. -/
def Tiles : List (Nat × Nat) → Nat → Nat → Prop
  | [], a, b => a = b
  | (x, y) :: bs, a, b => x = a ∧ a < y ∧ Tiles bs y b

theorem chunkBounds_tiles (m : Nat) : ∀ (ns : List Nat) (i off cs : Nat), off ≤ i →
    Tiles (chunkBounds m ns i off cs) off (i + ns.length) := by
  intro ns
  induction ns with
  | nil =>
    intro i off cs h
    rw [chunkBounds]
    split
    · exact ⟨rfl, by omega, rfl⟩
    · show off = i + 0; omega
  | cons n ns ih =>
    intro i off cs h
    rw [chunkBounds]
    split
    · have := ih (i+1) i n (by omega)
      rw [List.length_cons, show i + (ns.length + 1) = i + 1 + ns.length by omega]
      split
      · exact ⟨rfl, by omega, this⟩
      · rw [List.nil_append, show off = i by omega]; exact this
    · have := ih (i+1) off (cs+n) (by omega)
      rw [List.length_cons, show i + (ns.length + 1) = i + 1 + ns.length by omega]
      exact this

/-- C22, chunking. For every list of particle counts and every chunk limit, the chunks are
non-empty, follow each other and cover all subhaloes. -/
theorem C22_chunks_cover (maxChunk : Nat) (ns : List Nat) :
    Tiles (chunkBounds maxChunk ns 0 0 0) 0 ns.length := by
  have := chunkBounds_tiles maxChunk ns 0 0 0 (le_refl 0)
  rwa [Nat.zero_add] at this

theorem chunkBounds_small (m : Nat) (all : List Nat) : ∀ (suf : List Nat) (i off cs : Nat), off ≤ i →
    all.drop i = suf → cs = ((all.take i).drop off).sum → (cs < m ∨ i ≤ off + 1) →
    ∀ b ∈ chunkBounds m suf i off cs, ((all.take b.2).drop b.1).sum < m ∨ b.2 ≤ b.1 + 1 := by
  intro suf
  induction suf with
  | nil =>
    intro i off cs h1 h2 h3 h4 b hb
    rw [chunkBounds] at hb
    split at hb
    · rw [List.mem_singleton] at hb
      subst hb
      rcases h4 with h | h
      · exact Or.inl (by simp only; omega)
      · exact Or.inr h
    · simp at hb
  | cons n ns ih =>
    intro i off cs h1 h2 h3 h4 b hb
    have hi : i < all.length := by
      by_contra h
      rw [List.drop_of_length_le (by omega)] at h2
      cases h2
    rw [List.drop_eq_getElem_cons hi] at h2
    obtain ⟨rfl, h2'⟩ := List.cons.inj h2
    have htl : (all.take i).length = i := by simp; omega
    rw [chunkBounds] at hb
    split at hb
    · rw [List.mem_append] at hb
      rcases hb with hb | hb
      · split at hb
        · rw [List.mem_singleton] at hb
          subst hb
          rcases h4 with h | h
          · exact Or.inl (by simp only; omega)
          · exact Or.inr h
        · simp at hb
      · refine ih (i+1) i _ (by omega) h2' ?_ (Or.inr (by omega)) b hb
        rw [List.take_add_one, List.drop_append_of_le_length (by omega), List.drop_of_length_le (by omega),
          List.getElem?_eq_getElem hi]
        simp
    · rename_i hlt
      refine ih (i+1) off _ (by omega) h2' ?_ (Or.inl (by omega)) b hb
      rw [List.take_add_one, List.drop_append_of_le_length (by omega), List.sum_append, ← h3,
        List.getElem?_eq_getElem hi]
      simp

/-- C22, chunking. Every chunk holds fewer than `maxChunk` particles, unless it is a single
subhalo. -/
theorem C22_chunks_small (maxChunk : Nat) (ns : List Nat) :
    ∀ b ∈ chunkBounds maxChunk ns 0 0 0, ((ns.take b.2).drop b.1).sum < maxChunk ∨ b.2 ≤ b.1 + 1 :=
  chunkBounds_small maxChunk ns ns 0 0 0 (le_refl _) rfl (by simp) (Or.inr (by omega))

example : chunkBounds 10 [4, 4, 4, 30, 1, 2] 0 0 0 = [(0, 2), (2, 3), (3, 4), (4, 6)] := by decide

/-! ## Which rank answers -/

theorem maxloc_fold {P : Nat} (x : Fin P → Int) : ∀ (qs : List (Fin P)) (a : Int × Fin P), a.1 = x a.2 →
    let m := (qs.map (fun q => (x q, q))).foldl maxloc a
    m.1 = x m.2 ∧ a.1 ≤ m.1 ∧ (x a.2 = m.1 → m.2 ≤ a.2) ∧
      ∀ q ∈ qs, x q ≤ m.1 ∧ (x q = m.1 → m.2 ≤ q) := by
  intro qs
  induction qs with
  | nil => intro a ha; exact ⟨ha, le_refl _, fun _ => le_refl _, fun q hq => by simp at hq⟩
  | cons q qs ih =>
    intro a ha
    simp only [List.map_cons, List.foldl_cons]
    have hm : (maxloc a (x q, q)).1 = x (maxloc a (x q, q)).2 ∧ a.1 ≤ (maxloc a (x q, q)).1 ∧
        x q ≤ (maxloc a (x q, q)).1 ∧ (x a.2 = (maxloc a (x q, q)).1 → (maxloc a (x q, q)).2 ≤ a.2) ∧
        (x q = (maxloc a (x q, q)).1 → (maxloc a (x q, q)).2 ≤ q) := by
      unfold maxloc
      simp only
      split_ifs with h1 h2
      · exact ⟨rfl, le_of_lt h1, le_refl _, fun h => by simp only at h; omega, fun _ => le_refl _⟩
      · exact ⟨ha, le_refl _, le_of_lt h2, fun _ => le_refl _, fun h => by omega⟩
      · refine ⟨?_, le_refl _, by omega, fun _ => min_le_left _ _, fun _ => min_le_right _ _⟩
        have hq : x q = a.1 := by omega
        rcases min_choice a.2 q with h | h
        · rw [h]; exact ha
        · rw [h]; exact hq.symm
    obtain ⟨m1, m2, m3, m4, m5⟩ := hm
    obtain ⟨i1, i2, i3, i4⟩ := ih (maxloc a (x q, q)) m1
    refine ⟨i1, le_trans m2 i2, ?_, ?_⟩
    · intro h
      have e : (maxloc a (x q, q)).1 = ((qs.map (fun q => (x q, q))).foldl maxloc (maxloc a (x q, q))).1 := by
        omega
      exact le_trans (i3 (by omega)) (m4 (by omega))
    · intro q' hq'
      rcases List.mem_cons.1 hq' with rfl | h
      · refine ⟨le_trans m3 i2, fun h => ?_⟩
        exact le_trans (i3 (by omega)) (m5 (by omega))
      · exact i4 q' h

theorem allMaxloc_spec {P : Nat} (x : Fin P → Int) (root : Fin P) :
    (allMaxloc x root).1 = x (allMaxloc x root).2 ∧ (∀ q, x q ≤ (allMaxloc x root).1) ∧
      ∀ q, x q = (allMaxloc x root).1 → (allMaxloc x root).2 ≤ q := by
  have h := maxloc_fold x (List.finRange P) (x root, root) rfl
  have e : (List.finRange P).map (fun q => (x q, q)) = List.ofFn (fun q => (x q, q)) := by
    rw [List.ofFn_eq_map]
  rw [e] at h
  exact ⟨h.1, fun q => (h.2.2.2 q (List.mem_finRange q)).1, fun q => (h.2.2.2 q (List.mem_finRange q)).2⟩

/-! ## One chunk -/

/-- The answer for a subhalo of `root`. -/
def answer {P : Nat} (hash : Fin P → Int → Int) (inSnap : Fin P → Int → Bool) (root : Fin P)
    (s : Sub K D) : Int × Fin P :=
  match s.particles with
  | [] => (0, root)
  | p :: _ => allMaxloc (fun q => if q = root then s.hostHaloId else getLocalHostId (hash q) (inSnap q) p.id) root

theorem globalHosts_ok {P : Nat} (hash : Fin P → Int → Int) (inSnap : Fin P → Int → Bool) (root : Fin P) :
    ∀ chunk : List (Sub K D), (∀ s ∈ chunk, s.particles ≠ []) →
    globalHosts hash inSnap root chunk = .ok (chunk.map (answer hash inSnap root)) := by
  intro chunk
  induction chunk with
  | nil => intro _; rfl
  | cons s chunk ih =>
    intro h
    have hs := h s (by simp)
    have e : globalHost hash inSnap root s = .ok (answer hash inSnap root s) := by
      unfold globalHost answer
      cases hp : s.particles with
      | nil => exact absurd hp hs
      | cons p ps => simp [Outcome.get]
    rw [globalHosts, e, Outcome.bind_ok, ih (fun t ht => h t (by simp [ht])), Outcome.bind_ok]
    rfl

theorem filter_mergeSort {β : Type} (key : β → Nat) (l : List β) (k : Nat) :
    (l.mergeSort (fun a b => decide (key a ≤ key b))).filter (fun a => decide (key a = k))
      = l.filter (fun a => decide (key a = k)) := by
  have h1 : (l.filter (fun a => decide (key a = k))).Sublist (l.mergeSort (fun a b => decide (key a ≤ key b))) := by
    refine List.sublist_mergeSort ?_ ?_ ?_ List.filter_sublist
    · intro a b c h1 h2; simp only [decide_eq_true_eq] at *; omega
    · intro a b; simp only [Bool.or_eq_true, decide_eq_true_eq]; omega
    · rw [List.pairwise_filter]
      rw [List.pairwise_iff_forall_sublist]
      intro a b _ ha hb
      simp only [decide_eq_true_eq] at *
      omega
  have h2 := h1.filter (fun a => decide (key a = k))
  rw [List.filter_filter] at h2
  simp only [Bool.and_self] at h2
  exact (h2.eq_of_length ((List.mergeSort_perm l _).filter _).length_eq.symm).symm

theorem readAll_map {β : Type} (v : List β) (d : β) : ∀ is : List Nat, (∀ i ∈ is, i < v.length) →
    readAll (fun s => s) v is = .ok (is.map (fun i => (v[i]?).getD d)) := by
  intro is
  induction is with
  | nil => intro _; rfl
  | cons i is ih =>
    intro h
    have hi := h i (by simp)
    rw [readAll, Outcome.get_of_lt hi, Outcome.bind_ok, ih (fun j hj => h j (by simp [hj])), Outcome.bind_ok]
    simp [hi]

/-- What rank `r` receives from `root`. -/
def received {P : Nat} (hash : Fin P → Int → Int) (inSnap : Fin P → Int → Bool) (root r : Fin P)
    (chunk : List (Sub K D)) : List (Sub K D) :=
  (chunk.filter (fun s => decide ((answer hash inSnap root s).2 = r))).map
    (fun s => withHost s (answer hash inSnap root s).1)

theorem zip_map_self {α β : Type} (f : α → β) : ∀ l : List α, List.zip l (l.map f) = l.map (fun s => (s, f s))
  | [] => rfl
  | a :: l => by rw [List.map_cons, List.zip_cons_cons, zip_map_self f l]; rfl

theorem zipIdx_map_getD {α β : Type} (f : α → β) (d : β) (p : α → Bool) (l : List α) :
    ((l.zipIdx).filter (fun x => p x.1)).map (fun x => ((l.map f)[x.2]?).getD d) = (l.filter p).map f := by
  have h1 : ((l.zipIdx).filter (fun x => p x.1)).map (fun x => ((l.map f)[x.2]?).getD d)
      = ((l.zipIdx).filter (fun x => p x.1)).map (fun x => f x.1) := by
    refine List.map_congr_left (fun x hx => ?_)
    have hx := List.mem_of_mem_filter hx
    obtain ⟨a, i⟩ := x
    rw [List.mem_zipIdx_iff_getElem?] at hx
    simp [hx]
  rw [h1]
  have h2 : l.filter p = ((l.zipIdx).filter (fun x => p x.1)).map Prod.fst := by
    conv_lhs => rw [← List.zipIdx_map_fst 0 l, List.filter_map]
    rfl
  rw [h2, List.map_map]
  rfl

theorem findOtherHosts_ok {P : Nat} (hash : Fin P → Int → Int) (inSnap : Fin P → Int → Bool) (root : Fin P)
    (chunk : List (Sub K D)) (loc : Fin P → List (Sub K D)) (hne : ∀ s ∈ chunk, s.particles ≠ []) :
    findOtherHosts hash inSnap root chunk loc
      = .ok (fun r => loc r ++ received hash inSnap root r chunk) := by
  cases chunk with
  | nil =>
    unfold findOtherHosts
    rw [globalHosts_ok hash inSnap root [] hne, Outcome.bind_ok]
    simp only [List.map_nil, List.zip_nil_left, List.filter_nil, List.zipWith_nil_left, List.zipIdx_nil,
      List.mergeSort_nil, List.length_nil, received, List.append_nil]
    rw [readAll, Outcome.bind_ok]
    refine allRanks_ok _ _ (fun r => ?_)
    rw [disps_ok, Outcome.bind_ok]
    have : offOf (fun _ : Fin P => 0) r = 0 := by
      unfold offOf; simp
    rw [this]
    simp [slice]
  | cons s0 chunk0 =>
  generalize hch : s0 :: chunk0 = chunk at *
  set gh := answer (K := K) (D := D) hash inSnap root with hgh
  set W : Sub K D → Sub K D := fun s => withHost s (gh s).1 with hW
  have hw : List.zipWith (fun s x => { s with hostHaloId := x.1 }) chunk (chunk.map gh)
      = chunk.map W := by
    rw [List.zipWith_map_right, List.zipWith_self]; rfl
  have hsend : ∀ r, (List.zip chunk (chunk.map gh)).filter (fun x => decide (x.2.2 = r))
      = (chunk.filter (fun s => decide ((gh s).2 = r))).map (fun s => (s, gh s)) := by
    intro r
    rw [zip_map_self, List.filter_map]
    rfl
  have hT : ((chunk.map gh).map Prod.snd).zipIdx = chunk.zipIdx.map (fun x => ((gh x.1).2, x.2)) := by
    rw [List.map_map, List.zipIdx_map]
    rfl
  unfold findOtherHosts
  rw [globalHosts_ok hash inSnap root chunk hne, Outcome.bind_ok, ← hgh]
  simp only [hsend, hT]
  rw [hw]
  set L := (chunk.zipIdx.map (fun x => ((gh x.1).2, x.2))).mergeSort (fun a b => decide (a.1.val ≤ b.1.val)) with hL
  have hfil : ∀ r : Fin P, L.filter (fun a => decide (a.1 = r))
      = (chunk.zipIdx.filter (fun x => decide ((gh x.1).2 = r))).map (fun x => ((gh x.1).2, x.2)) := by
    intro r
    have h := filter_mergeSort (fun a : Fin P × Nat => a.1.val) (chunk.zipIdx.map (fun x => ((gh x.1).2, x.2))) r.val
    simp only [Fin.val_inj] at h
    rw [hL, h, List.filter_map]
    rfl
  have hcount : ∀ r, ((chunk.filter (fun s => decide ((gh s).2 = r))).map (fun s => (s, gh s))).length
      = (L.filter (fun a => decide (a.1 = r))).length := by
    intro r
    rw [hfil r, List.length_map, List.length_map]
    have := congrArg List.length (zipIdx_map_getD (fun s : Sub K D => s) s0 (fun s => decide ((gh s).2 = r)) chunk)
    simpa using this.symm
  have hLs : L.Pairwise (fun x y => x.1.val ≤ y.1.val) := by
    have := List.pairwise_mergeSort (le := fun a b : Fin P × Nat => decide (a.1.val ≤ b.1.val)) (by
      intro a b c h1 h2; simp only [decide_eq_true_eq] at *; omega) (by
      intro a b; simp only [Bool.or_eq_true, decide_eq_true_eq]; omega)
      (chunk.zipIdx.map (fun x => ((gh x.1).2, x.2)))
    rw [← hL] at this
    exact this.imp (fun h => by simpa using h)
  rw [readAll_map (chunk.map W) s0 _ (by
    intro i hi
    rw [List.mem_map] at hi
    obtain ⟨x, hx, rfl⟩ := hi
    rw [hL, List.mem_mergeSort, List.mem_map] at hx
    obtain ⟨⟨a, j⟩, hy, rfl⟩ := hx
    rw [List.mem_zipIdx_iff_getElem?] at hy
    rw [List.length_map]
    exact (List.getElem?_eq_some_iff.1 hy).1), Outcome.bind_ok, List.map_map]
  refine allRanks_ok _ _ (fun r => ?_)
  rw [disps_ok, Outcome.bind_ok]
  simp only [hcount]
  rw [sorted_slice (fun a : Fin P × Nat => a.1) L hLs r, Outcome.bind_ok, hfil r, List.map_map]
  congr 2
  have h := zipIdx_map_getD W s0 (fun s => decide ((gh s).2 = r)) chunk
  have h' : List.map (((fun i => ((chunk.map W)[i]?).getD s0) ∘ Prod.snd) ∘ fun x => ((gh x.1).2, x.2))
      (chunk.zipIdx.filter (fun x => decide ((gh x.1).2 = r)))
      = (chunk.filter (fun s => decide ((gh s).2 = r))).map W := h
  rw [h', List.map_map, List.zipWith_map_left, List.zipWith_map_right, List.zipWith_self]
  rfl

/-! ## All chunks of all ranks -/

theorem received_append {P : Nat} (hash : Fin P → Int → Int) (inSnap : Fin P → Int → Bool) (root r : Fin P)
    (a b : List (Sub K D)) :
    received hash inSnap root r (a ++ b) = received hash inSnap root r a ++ received hash inSnap root r b := by
  unfold received
  rw [List.filter_append, List.map_append]

theorem tiles_le : ∀ (bs : List (Nat × Nat)) (a b : Nat), Tiles bs a b → a ≤ b
  | [], a, b, h => le_of_eq h
  | (x, y) :: bs, a, b, h => le_trans (le_of_lt h.2.1) (tiles_le bs y b h.2.2)

theorem scatterChunks_ok {P : Nat} (hash : Fin P → Int → Int) (inSnap : Fin P → Int → Bool) (root : Fin P)
    (subs : List (Sub K D)) (hne : ∀ s ∈ subs, s.particles ≠ []) : ∀ (bs : List (Nat × Nat)) (a : Nat)
    (loc : Fin P → List (Sub K D)), Tiles bs a subs.length →
    scatterChunks hash inSnap root subs bs loc
      = .ok (fun r => loc r ++ received hash inSnap root r (subs.drop a)) := by
  intro bs
  induction bs with
  | nil =>
    intro a loc h
    have h : a = subs.length := h
    subst h
    rw [scatterChunks]
    simp [received]
  | cons b bs ih =>
    intro a loc h
    obtain ⟨x, y⟩ := b
    obtain ⟨rfl, h2, h3⟩ := h
    have hy : y ≤ subs.length := tiles_le bs y _ h3
    have hsl : slice subs x (y - x) = .ok ((subs.drop x).take (y - x)) := by
      unfold slice; rw [if_pos (by omega)]
    rw [scatterChunks, hsl, Outcome.bind_ok, findOtherHosts_ok hash inSnap root _ loc
      (fun s hs => hne s (List.mem_of_mem_drop (List.mem_of_mem_take hs))), Outcome.bind_ok, ih y _ h3]
    congr 1
    funext r
    rw [List.append_assoc, ← received_append]
    congr 2
    have : subs.drop y = (subs.drop x).drop (y - x) := by rw [List.drop_drop]; congr 1; omega
    rw [this, List.take_append_drop]

theorem scatterRoots_ok {P : Nat} (maxChunk : Nat) (hash : Fin P → Int → Int) (inSnap : Fin P → Int → Bool)
    (keep : Fin P → List (Sub K D)) (hne : ∀ q, ∀ s ∈ keep q, s.particles ≠ []) : ∀ (roots : List (Fin P))
    (loc : Fin P → List (Sub K D)), scatterRoots maxChunk hash inSnap keep roots loc
      = .ok (fun r => loc r ++ (roots.map (fun q => received hash inSnap q r (keep q))).flatten) := by
  intro roots
  induction roots with
  | nil => intro loc; rw [scatterRoots]; simp
  | cons q roots ih =>
    intro loc
    have ht := C22_chunks_cover maxChunk ((keep q).map (fun s => s.particles.length))
    rw [List.length_map] at ht
    rw [scatterRoots, scatterChunks_ok hash inSnap q (keep q) (hne q) _ 0 loc ht, Outcome.bind_ok, ih]
    congr 1
    funext r
    simp

theorem findLocalHosts_eq (hash : Int → Int) (inSnap : Int → Bool) : ∀ subs : List (Sub K D),
    findLocalHosts hash inSnap subs =
      ((subs.map (localHost hash inSnap)).filter (fun s => s.hostHaloId < 0 && s.particles.length != 0),
       (subs.map (localHost hash inSnap)).filter (fun s => !(s.hostHaloId < 0 && s.particles.length != 0))) := by
  intro subs
  induction subs with
  | nil => rfl
  | cons s subs ih =>
    rw [findLocalHosts, ih]
    simp only [List.map_cons, List.filter_cons]
    cases (decide ((localHost hash inSnap s).hostHaloId < 0) && (localHost hash inSnap s).particles.length != 0) <;> simp

/-- Final rank and host of a subhalo `s` of rank `r0`. -/
def place {P : Nat} (hash : Fin P → Int → Int) (inSnap : Fin P → Int → Bool) (r0 : Fin P) (s : Sub K D) :
    Fin P × Int :=
  let t := localHost (hash r0) (inSnap r0) s
  if t.hostHaloId < 0 && t.particles.length != 0 then
    ((answer hash inSnap r0 t).2, (answer hash inSnap r0 t).1)
  else (r0, t.hostHaloId)

theorem localHost_particles (hash : Int → Int) (inSnap : Int → Bool) (s : Sub K D) :
    (localHost hash inSnap s).particles = s.particles := by
  unfold localHost
  split <;> rfl

theorem withHost_localHost (hash : Int → Int) (inSnap : Int → Bool) (s : Sub K D) (h : Int) :
    withHost (localHost hash inSnap s) h = withHost s h := by
  unfold localHost withHost
  split <;> rfl

theorem withHost_self (s : Sub K D) : withHost s s.hostHaloId = s := rfl

theorem flatten_single {α : Type} {P : Nat} (f : Fin P → List α) (r : Fin P) :
    (List.ofFn (fun r0 => if r0 = r then f r0 else [])).flatten = f r := by
  induction P with
  | zero => exact r.elim0
  | succ P ih =>
    rw [List.ofFn_succ, List.flatten_cons]
    refine Fin.cases ?_ (fun j => ?_) r
    · rw [if_pos rfl]
      have : (fun i : Fin P => if i.succ = 0 then f i.succ else []) = fun _ => [] := by
        funext i; rw [if_neg (Fin.succ_ne_zero i)]
      rw [this]
      simp
    · rw [if_neg (Fin.succ_ne_zero j).symm, List.nil_append]
      have : (fun i : Fin P => if i.succ = j.succ then f i.succ else []) = fun i => if i = j then f i.succ else [] := by
        funext i; simp only [Fin.succ_inj]
      rw [this]
      exact ih (fun i => f i.succ) j

theorem flatten_congr_perm {α : Type} : ∀ {P : Nat} (f g : Fin P → List α), (∀ i, (f i).Perm (g i)) →
    (List.ofFn f).flatten.Perm (List.ofFn g).flatten := by
  intro P
  induction P with
  | zero => intro f g _; simp
  | succ P ih =>
    intro f g h
    rw [List.ofFn_succ, List.ofFn_succ, List.flatten_cons, List.flatten_cons]
    exact (h 0).append (ih _ _ (fun i => h i.succ))

theorem place_spec {P : Nat} (hash : Fin P → Int → Int) (inSnap : Fin P → Int → Bool)
    (hh : ∀ q pid, -1 ≤ hash q pid) (r0 : Fin P) (s : Sub K D) :
    IsPlace hash inSnap r0 s (place hash inSnap r0 s).1 (place hash inSnap r0 s).2 := by
  unfold place
  simp only [localHost_particles]
  cases hp : s.particles with
  | nil =>
    have hl : (localHost (hash r0) (inSnap r0) s).hostHaloId = -1 := by unfold localHost; rw [hp]
    simp only [hl]
    refine ⟨fun _ => by simp, ?_, ?_, ?_, ?_⟩ <;> intro p ps h <;> rw [hp] at h <;> cases h
  | cons p ps =>
    have hnn : s.particles ≠ [] := by simp [hp]
    have hl : (localHost (hash r0) (inSnap r0) s).hostHaloId = getLocalHostId (hash r0) (inSnap r0) p.id := by
      unfold localHost; rw [hp]
    have hv : ∀ q, (0 ≤ hash q p.id → getLocalHostId (hash q) (inSnap q) p.id = hash q p.id) ∧
        (hash q p.id < 0 → inSnap q p.id = true → getLocalHostId (hash q) (inSnap q) p.id = -1) ∧
        (hash q p.id < 0 → inSnap q p.id = false → getLocalHostId (hash q) (inSnap q) p.id = -2) := by
      intro q
      have := hh q p.id
      unfold getLocalHostId
      refine ⟨fun h => ?_, fun h h' => ?_, fun h h' => ?_⟩
      · simp only [if_neg (show ¬ hash q p.id < 0 by omega)]
      · simp only [if_pos h, h']; simp; omega
      · simp only [if_pos h, h']; simp; omega
    have hv' : ∀ q, getLocalHostId (hash q) (inSnap q) p.id < 0 → hash q p.id < 0 := by
      intro q h
      by_contra h'
      rw [(hv q).1 (by omega)] at h
      omega
    by_cases hneg : (localHost (hash r0) (inSnap r0) s).hostHaloId < 0
    · have ha : answer hash inSnap r0 (localHost (hash r0) (inSnap r0) s)
          = allMaxloc (fun q => getLocalHostId (hash q) (inSnap q) p.id) r0 := by
        unfold answer
        rw [localHost_particles, hp]
        simp only
        congr 1
        funext q
        split
        · rename_i h; rw [hl, h]
        · rfl
      rw [if_pos (by simp [hneg]), ha]
      obtain ⟨m1, m2, -⟩ := allMaxloc_spec (fun q => getLocalHostId (hash q) (inSnap q) p.id) r0
      set m := allMaxloc (fun q => getLocalHostId (hash q) (inSnap q) p.id) r0 with hm
      simp only at m1 m2 ⊢
      refine ⟨fun h => absurd h hnn, ?_, ?_, ?_, ?_⟩ <;> intro p' ps' h <;> rw [hp] at h <;>
        obtain ⟨rfl, rfl⟩ := List.cons.inj h
      · rintro ⟨q, hq⟩
        have h1 := m2 q
        rw [(hv q).1 hq] at h1
        have h2 : 0 ≤ hash m.2 p.id := by
          by_contra h3
          have h3 : hash m.2 p.id < 0 := by omega
          cases hb : inSnap m.2 p.id with
          | true => have := (hv m.2).2.1 h3 hb; omega
          | false => have := (hv m.2).2.2 h3 hb; omega
        exact ⟨h2, by rw [m1, (hv m.2).1 h2]⟩
      · intro h
        rw [hl] at hneg
        have := hv' r0 hneg
        omega
      · rintro hn ⟨q, hq⟩
        have h1 := m2 q
        rw [(hv q).2.1 (hn q) hq] at h1
        cases hb : inSnap m.2 p.id with
        | true => exact ⟨by rw [m1, (hv m.2).2.1 (hn _) hb], rfl⟩
        | false => have := (hv m.2).2.2 (hn _) hb; omega
      · intro hn hs
        rw [m1, (hv m.2).2.2 (hn _) (hs _)]
    · rw [if_neg (by simp [hneg])]
      have h0 : 0 ≤ hash r0 p.id := by
        by_contra h3
        have h3 : hash r0 p.id < 0 := by omega
        rw [hl] at hneg
        cases hb : inSnap r0 p.id with
        | true => have := (hv r0).2.1 h3 hb; omega
        | false => have := (hv r0).2.2 h3 hb; omega
      refine ⟨fun h => absurd h hnn, ?_, ?_, ?_, ?_⟩ <;> intro p' ps' h <;> rw [hp] at h <;>
        obtain ⟨rfl, rfl⟩ := List.cons.inj h
      · intro _
        exact ⟨h0, by rw [hl, (hv r0).1 h0]⟩
      · intro _; rfl
      · intro hn; have := hn r0; omega
      · intro hn; have := hn r0; omega

/-- C22. For every number of ranks, every distribution of subhaloes and every chunk limit, host
assignment succeeds and neither loses nor duplicates a subhalo: the subhaloes on rank `r` afterwards are
exactly (up to order) those of all ranks whose place is `r`, unchanged but for the host, and every
subhalo is placed as `IsPlace` says. `hash` is the lookup in the halo table of each rank, which
returns `-1` or a halo index (C10, C11). -/
theorem C22_assign_hosts {P : Nat} (maxChunk : Nat) (hash : Fin P → Int → Int) (inSnap : Fin P → Int → Bool)
    (hh : ∀ q pid, -1 ≤ hash q pid) (subs : Fin P → List (Sub K D)) :
    ∃ (out : Fin P → List (Sub K D)) (pl : Fin P → Sub K D → Fin P × Int),
      assignHosts maxChunk hash inSnap subs = .ok out ∧
      (∀ r0, ∀ s ∈ subs r0, IsPlace hash inSnap r0 s (pl r0 s).1 (pl r0 s).2) ∧
      ∀ r, (out r).Perm (List.ofFn (fun r0 => ((subs r0).filter (fun s => decide ((pl r0 s).1 = r))).map
        (fun s => withHost s (pl r0 s).2))).flatten := by
  refine ⟨fun r => ((subs r).map (localHost (hash r) (inSnap r))).filter
      (fun s => !(s.hostHaloId < 0 && s.particles.length != 0)) ++
    ((List.finRange P).map (fun q => received hash inSnap q r
      (((subs q).map (localHost (hash q) (inSnap q))).filter
        (fun s => s.hostHaloId < 0 && s.particles.length != 0)))).flatten, place hash inSnap, ?_, fun r0 s _ => place_spec hash inSnap hh r0 s, ?_⟩
  · unfold assignHosts
    simp only [findLocalHosts_eq]
    exact scatterRoots_ok maxChunk hash inSnap _ (by
      intro q s hs
      have := (List.mem_filter.1 hs).2
      intro h
      simp [h] at this) (List.finRange P) _
  · intro r
    simp only
    rw [← List.ofFn_eq_map]
    have hr : ∀ r0, (((subs r0).filter (fun s => decide ((place hash inSnap r0 s).1 = r))).map
        (fun s => withHost s (place hash inSnap r0 s).2)).Perm
        ((if r0 = r then ((subs r0).map (localHost (hash r0) (inSnap r0))).filter
            (fun s => !(s.hostHaloId < 0 && s.particles.length != 0)) else []) ++
          received hash inSnap r0 r (((subs r0).map (localHost (hash r0) (inSnap r0))).filter
            (fun s => s.hostHaloId < 0 && s.particles.length != 0))) := by
      intro r0
      generalize subs r0 = l
      induction l with
      | nil => simp [received]
      | cons s l ih =>
        set t := localHost (hash r0) (inSnap r0) s with ht
        cases hc : (decide (t.hostHaloId < 0) && t.particles.length != 0) with
        | true =>
          have hpl : place hash inSnap r0 s = ((answer hash inSnap r0 t).2, (answer hash inSnap r0 t).1) := by
            unfold place; simp only; rw [← ht, hc]; rfl
          rw [List.map_cons, ← ht, List.filter_cons, List.filter_cons, List.filter_cons]
          simp only [hpl, hc, Bool.not_true, if_true, if_false, Bool.false_eq_true]
          by_cases hr : (answer hash inSnap r0 t).2 = r
          · have hrec : ∀ l', received hash inSnap r0 r (t :: l')
                = withHost s (answer hash inSnap r0 t).1 :: received hash inSnap r0 r l' := by
              intro l'
              unfold received
              rw [List.filter_cons, if_pos (by simpa using hr), List.map_cons]
              rw [ht, withHost_localHost]
            rw [if_pos (by simpa using hr), List.map_cons, hrec, hpl]
            exact (List.Perm.cons _ ih).trans List.perm_middle.symm
          · have hrec : ∀ l', received hash inSnap r0 r (t :: l') = received hash inSnap r0 r l' := by
              intro l'
              unfold received
              rw [List.filter_cons, if_neg (by simpa using hr)]
            rw [if_neg (by simpa using hr), hrec]
            exact ih
        | false =>
          have hpl : place hash inSnap r0 s = (r0, t.hostHaloId) := by
            unfold place; simp only; rw [← ht, hc]; rfl
          rw [List.map_cons, ← ht, List.filter_cons, List.filter_cons, List.filter_cons]
          simp only [hpl, hc, Bool.not_false, if_true, if_false, Bool.false_eq_true]
          by_cases hr : r0 = r
          · rw [if_pos (by simpa using hr), if_pos hr, List.map_cons, hpl]
            rw [if_pos hr] at ih
            have : withHost s t.hostHaloId = t := by
              rw [← withHost_localHost (hash r0) (inSnap r0), ← ht]; rfl
            rw [this]
            exact List.Perm.cons _ ih
          · rw [if_neg (by simpa using hr), if_neg hr]
            rw [if_neg hr] at ih
            exact ih
    refine ((flatten_congr_perm _ _ hr).trans ((flatten_append_perm _ _).trans ?_)).symm
    rw [flatten_single]

/-- C22, a finding. If the first particle of some subhalo is nowhere in the snapshot, the table built
right after host assignment (line 432, with orphans) writes out of range: undefined behaviour on the
rank to which that subhalo went. -/
theorem C22_lost_particle {P : Nat} (maxChunk : Nat) (hash : Fin P → Int → Int) (inSnap : Fin P → Int → Bool)
    (hh : ∀ q pid, -1 ≤ hash q pid) (subs : Fin P → List (Sub K D)) (r0 : Fin P) (s : Sub K D)
    (hs : s ∈ subs r0) (p : Particle D) (ps : List (Particle D)) (hp : s.particles = p :: ps)
    (h1 : ∀ q, hash q p.id < 0) (h2 : ∀ q, inSnap q p.id = false)
    (sort : List (Sub K D) → List Nat → List Nat) (nhalos : Fin P → Nat) :
    ∃ out r, assignHosts maxChunk hash inSnap subs = .ok out ∧
      buildTable sort (nhalos r) (out r) true = .ub := by
  obtain ⟨out, pl, ho, hpl, hperm⟩ := C22_assign_hosts maxChunk hash inSnap hh subs
  have hn := (hpl r0 s hs).nowhere p ps hp h1 h2
  refine ⟨out, (pl r0 s).1, ho, C23_bad_host sort _ _ true (withHost s (pl r0 s).2) ?_ (Or.inl rfl) (Or.inl ?_)⟩
  · rw [(hperm _).mem_iff, List.mem_flatten]
    refine ⟨_, (List.mem_ofFn).2 ⟨r0, rfl⟩, ?_⟩
    rw [List.mem_map]
    exact ⟨s, List.mem_filter.2 ⟨hs, by simp⟩, rfl⟩
  · show (pl r0 s).2 < -1
    rw [hn]; decide

/-! ### A case: two ranks, three subhaloes; particle 7 is in halo 4 of rank 1, particle 9 is in the
part of rank 0 only and in no halo, the third subhalo is empty. -/

def exHash : Fin 2 → Int → Int := fun q pid => if q = 1 ∧ pid = 7 then 4 else -1
def exIn : Fin 2 → Int → Bool := fun q pid => if q = 1 then pid == 7 else pid == 9
def exHostSubs : Fin 2 → List (Sub Int Unit) := fun q =>
  if q = 0 then [{ mbound := 0, lastMaxMass := 0, trackId := 0, particles := [⟨7, ()⟩, ⟨9, ()⟩], nested := [1] },
    { mbound := 0, lastMaxMass := 0, trackId := 2 }]
  else [{ mbound := 0, lastMaxMass := 0, trackId := 1, particles := [⟨9, ()⟩] }]

example : ∀ q pid, -1 ≤ exHash q pid := by
  intro q pid; unfold exHash; split <;> omega

example : (match assignHosts 1 exHash exIn exHostSubs with
    | .ok out => (out 0).map (fun s => (s.trackId, s.hostHaloId, s.particles.length, s.nested)) ==
        [(2, -1, 0, []), (1, -1, 1, [])] &&
      (out 1).map (fun s => (s.trackId, s.hostHaloId, s.particles.length, s.nested)) == [(0, 4, 2, [1])]
    | _ => false) = true := by
  decide +kernel

end HBT.Props
