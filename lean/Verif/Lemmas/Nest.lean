import Verif.Model.Nest
import Verif.Lemmas.Forest
/-!
# Helper lemmas for the nesting hierarchy
-/
namespace HBT
open HBT.Model HBT.Spec HBT.Spec.Forest
variable {K D : Type}

/-- The indices `l` as they are stored in a nest. -/
def ints (l : List Nat) : List Int := l.map (fun i : Nat => (i : Int))

@[simp] theorem ints_nil : ints [] = [] := rfl
@[simp] theorem ints_cons (a : Nat) (l : List Nat) : ints (a :: l) = (a : Int) :: ints l := rfl
@[simp] theorem ints_append (l l' : List Nat) : ints (l ++ l') = ints l ++ ints l' := by simp [ints]
theorem ints_inj {l l' : List Nat} (h : ints l = ints l') : l = l' := by
  unfold ints at h
  exact List.map_injective_iff.2 (fun a b h => Int.ofNat.inj h) h

/-- The nest of subhalo `a`, in local indices. -/
def idxKids (subs : List (Sub K D)) (a : Nat) (l : List Nat) : Prop :=
  ∃ s, subs[a]? = some s ∧ s.nested = ints l

theorem idxKids_unique (subs : List (Sub K D)) (a : Nat) (l l' : List Nat) (h : idxKids subs a l)
    (h' : idxKids subs a l') : l = l' := by
  obtain ⟨s, h1, h2⟩ := h
  obtain ⟨s', h3, h4⟩ := h'
  rw [h1] at h3
  cases h3
  exact ints_inj (h2.symm.trans h4)

/-- Is the edge from `p` to `c` kept by `LevelUpDetachedMembers`? -/
def keepIn (subs : List (Sub K D)) (p c : Nat) : Bool :=
  match subs[p]?, subs[c]? with
  | some s, some t => decide (t.hostHaloId = s.hostHaloId) && decide (t.rank ≠ 0)
  | _, _ => false

/-- `s'` is `s` with another nest and, if `z`, with rank 0. -/
def Relinked (z : Prop) [Decidable z] (s s' : Sub K D) : Prop :=
  s' = (s.withRank (if z then 0 else s.rank)).withNested s'.nested

theorem get_some {α : Type} {v : List α} {i : Nat} {a : α} (h : v[i]? = some a) : Outcome.get v i = .ok a := by
  simp [Outcome.get, h]

theorem getI_some {α : Type} {v : List α} {i : Nat} {a : α} (h : v[i]? = some a) :
    Outcome.getI v (i : Int) = .ok a := by
  unfold Outcome.getI
  rw [if_neg (by omega), Int.toNat_natCast, get_some h]

theorem set_some {α : Type} {v : List α} {i : Nat} {a b : α} (h : v[i]? = some a) :
    Outcome.set v i b = .ok (v.set i b) := by
  rw [Outcome.set_of_lt (List.getElem?_eq_some_iff.1 h).1]

/-- What one or more calls of `LevelUpDetachedMembers` do: the nodes outside `ns` are untouched, those
inside only change their nest and, if they are in `zs`, get rank 0; the two forests hold afterwards. -/
structure Leveled (O subs subs' : List (Sub K D)) (ns zs : List Nat) : Prop where
  len : subs'.length = subs.length
  out : ∀ x, x ∉ ns → subs'[x]? = subs[x]?
  inn : ∀ x ∈ ns, ∃ s s', O[x]? = some s ∧ subs'[x]? = some s' ∧ Relinked (x ∈ zs) s s'

theorem levelUpKids_ok (O : List (Sub K D)) : ∀ (f : Forest Nat) (fuel p : Nat) (s0 : Sub K D) (subs : List (Sub K D)),
    O[p]? = some s0 → f.height ≤ fuel → f.nodes.Nodup → f.Shows (idxKids O) →
    (∀ x ∈ f.nodes, subs[x]? = O[x]?) →
    ∃ subs', levelUpKids (levelUpMembers fuel) s0.hostHaloId (ints f.roots) subs
        = .ok (ints (cut (keepIn O) p f).1.roots, subs') ∧
      Leveled O subs subs' f.nodes (cut (keepIn O) p f).2.roots ∧
      (cut (keepIn O) p f).1.Shows (idxKids subs') ∧ (cut (keepIn O) p f).2.Shows (idxKids subs') := by
  intro f
  induction f with
  | nil =>
    intro fuel p s0 subs _ _ _ _ _
    exact ⟨subs, rfl, ⟨rfl, fun _ _ => rfl, fun x hx => by simp at hx⟩, trivial, trivial⟩
  | cons a k r ihk ihr =>
    intro fuel p s0 subs hp hh hn hs hag
    obtain ⟨⟨sa, ha, hna⟩, hsk, hsr⟩ := hs
    rw [nodes_cons, List.nodup_cons, List.nodup_append, List.mem_append] at hn
    obtain ⟨hn1, hn2, hn3, hn4⟩ := hn
    have hak : a ∉ k.nodes := fun h => hn1 (Or.inl h)
    have har : a ∉ r.nodes := fun h => hn1 (Or.inr h)
    have hd : ∀ x ∈ k.nodes, x ∉ r.nodes := fun x hx hx' => hn4 x hx x hx' rfl
    simp only [height] at hh
    obtain ⟨fuel, rfl⟩ : ∃ m, fuel = m + 1 := ⟨fuel - 1, by omega⟩
    have hkeep : keepIn O p a = true ↔ ¬ (sa.hostHaloId ≠ s0.hostHaloId ∨ sa.rank = 0) := by
      unfold keepIn
      rw [hp, ha]
      simp
    have hsuba : subs[a]? = some sa := by rw [hag a (by simp), ha]
    have halt : a < subs.length := (List.getElem?_eq_some_iff.1 hsuba).1
    -- after `detach`
    obtain ⟨subs1, r', hdet, hl1, h1a, h1o, hr'⟩ : ∃ (subs1 : List (Sub K D)) (r' : Int),
        detach s0.hostHaloId a sa subs = .ok subs1 ∧ subs1.length = subs.length ∧
        subs1[a]? = some (sa.withRank r') ∧ (∀ x, x ≠ a → subs1[x]? = subs[x]?) ∧
        r' = (if keepIn O p a = true then sa.rank else 0) := by
      by_cases hc : sa.hostHaloId ≠ s0.hostHaloId ∨ sa.rank = 0
      · refine ⟨subs.set a (sa.withRank 0), 0, ?_, by simp, ?_, ?_, ?_⟩
        · unfold detach
          rw [if_pos hc, Outcome.set_of_lt halt]
        · simp [halt]
        · intro x hx
          simp [Ne.symm hx]
        · rw [if_neg (fun h => hkeep.1 h hc)]
      · refine ⟨subs, sa.rank, ?_, rfl, hsuba, fun _ _ => rfl, ?_⟩
        · unfold detach
          rw [if_neg hc]
        · rw [if_pos (hkeep.2 hc)]
    -- the recursive call
    obtain ⟨subs2, hk, hL2, hS2, hS2'⟩ := ihk fuel a sa subs1 ha (by omega) hn2 hsk (by
      intro x hx
      rw [h1o x (fun h => hak (h ▸ hx)), hag x (by simp [hx])])
    have h2a : subs2[a]? = some (sa.withRank r') := by rw [hL2.out a hak, h1a]
    have h2lt : a < subs2.length := (List.getElem?_eq_some_iff.1 h2a).1
    let subs3 := subs2.set a ((sa.withRank r').withNested (ints (cut (keepIn O) a k).1.roots))
    have hrec : levelUpMembers (fuel + 1) a subs1 = .ok subs3 := by
      rw [levelUpMembers, get_some h1a]
      simp only [Outcome.bind_ok, Sub.withRank_hostHaloId, Sub.withRank_nested]
      rw [hna, hk]
      simp only [Outcome.bind_ok]
      rw [get_some h2a]
      simp only [Outcome.bind_ok]
      rw [Outcome.set_of_lt h2lt]
    have h3a : subs3[a]? = some ((sa.withRank r').withNested (ints (cut (keepIn O) a k).1.roots)) := by
      simp [subs3, h2lt]
    have h3o : ∀ x, x ≠ a → subs3[x]? = subs2[x]? := by
      intro x hx
      simp [subs3, Ne.symm hx]
    -- the remaining siblings
    obtain ⟨subs4, hr, hL4, hS4, hS4'⟩ := ihr (fuel + 1) p s0 subs3 hp (by omega) hn3 hsr (by
      intro x hx
      have hxa : x ≠ a := fun h => har (h ▸ hx)
      have hxk : x ∉ k.nodes := fun h => hd x h hx
      rw [h3o x hxa, hL2.out x hxk, h1o x hxa, hag x (by simp [hx])])
    have h4a : subs4[a]? = some ((sa.withRank r').withNested (ints (cut (keepIn O) a k).1.roots)) := by
      rw [hL4.out a har, h3a]
    have h4k : ∀ x ∈ k.nodes, subs4[x]? = subs2[x]? := by
      intro x hx
      rw [hL4.out x (hd x hx), h3o x (fun h => hak (h ▸ hx))]
    have hkn : ∀ x, x ∈ (cut (keepIn O) a k).1.nodes ∨ x ∈ (cut (keepIn O) a k).2.nodes → x ∈ k.nodes := by
      intro x hx
      exact (cut_nodes (keepIn O) a k).mem_iff.1 (List.mem_append.2 hx)
    have hrn : ∀ x, x ∈ (cut (keepIn O) p r).1.nodes ∨ x ∈ (cut (keepIn O) p r).2.nodes → x ∈ r.nodes := by
      intro x hx
      exact (cut_nodes (keepIn O) p r).mem_iff.1 (List.mem_append.2 hx)
    have hSk : (cut (keepIn O) a k).1.Shows (idxKids subs4) := by
      refine shows_congr _ ?_ hS2
      rintro x hx l ⟨s, h1, h2⟩
      exact ⟨s, by rw [h4k x (hkn x (Or.inl hx)), h1], h2⟩
    have hSk' : (cut (keepIn O) a k).2.Shows (idxKids subs4) := by
      refine shows_congr _ ?_ hS2'
      rintro x hx l ⟨s, h1, h2⟩
      exact ⟨s, by rw [h4k x (hkn x (Or.inr hx)), h1], h2⟩
    have hSa : idxKids subs4 a (cut (keepIn O) a k).1.roots := ⟨_, h4a, rfl⟩
    refine ⟨subs4, ?_, ⟨?_, ?_, ?_⟩, ?_, ?_⟩
    · rw [roots_cons, ints_cons, levelUpKids, getI_some hsuba]
      simp only [Outcome.bind_ok, Int.toNat_natCast]
      rw [hdet]
      simp only [Outcome.bind_ok]
      rw [hrec]
      simp only [Outcome.bind_ok]
      rw [hr]
      simp only [Outcome.bind_ok]
      rw [cut]
      by_cases hc : keepIn O p a = true
      · rw [if_pos hc, if_neg (hkeep.1 hc)]
        rfl
      · rw [if_neg hc, if_pos (by by_contra h; exact hc (hkeep.2 h))]
    · have : subs3.length = subs2.length := by simp [subs3]
      rw [hL4.len, this, hL2.len, hl1]
    · intro x hx
      rw [nodes_cons, List.mem_cons, List.mem_append, not_or, not_or] at hx
      rw [hL4.out x hx.2.2, h3o x hx.1, hL2.out x hx.2.1, h1o x hx.1]
    · intro x hx
      rw [nodes_cons, List.mem_cons, List.mem_append] at hx
      have hzs : ∀ y, y ∈ (cut (keepIn O) p (cons a k r)).2.roots ↔ (y = a ∧ ¬ keepIn O p a = true) ∨
          y ∈ (cut (keepIn O) a k).2.roots ∨ y ∈ (cut (keepIn O) p r).2.roots := by
        intro y
        rw [cut]
        by_cases hc : keepIn O p a = true
        · simp [hc]
        · simp [hc]
      rcases hx with rfl | hx | hx
      · refine ⟨sa, _, ha, h4a, ?_⟩
        have hnk : x ∉ (cut (keepIn O) x k).2.roots := fun h => hak (hkn x (Or.inr (roots_subset _ h)))
        have hnr : x ∉ (cut (keepIn O) p r).2.roots := fun h => har (hrn x (Or.inr (roots_subset _ h)))
        unfold Relinked
        congr 2
        rw [hr']
        by_cases hc : keepIn O p x = true
        · rw [if_pos hc, if_neg]
          rw [hzs]
          simp [hc, hnk, hnr]
        · rw [if_neg hc, if_pos]
          rw [hzs]
          exact Or.inl ⟨rfl, hc⟩
      · obtain ⟨s, s', h1, h2, h3⟩ := hL2.inn x hx
        refine ⟨s, s', h1, by rw [h4k x hx, h2], ?_⟩
        have : x ∈ (cut (keepIn O) p (cons a k r)).2.roots ↔ x ∈ (cut (keepIn O) a k).2.roots := by
          rw [hzs]
          have hxa : x ≠ a := fun h => hak (h ▸ hx)
          have hnr : x ∉ (cut (keepIn O) p r).2.roots := fun h => hd x hx (hrn x (Or.inr (roots_subset _ h)))
          simp [hxa, hnr]
        unfold Relinked at h3 ⊢
        simp only [this]
        exact h3
      · obtain ⟨s, s', h1, h2, h3⟩ := hL4.inn x hx
        refine ⟨s, s', h1, h2, ?_⟩
        have : x ∈ (cut (keepIn O) p (cons a k r)).2.roots ↔ x ∈ (cut (keepIn O) p r).2.roots := by
          rw [hzs]
          have hxa : x ≠ a := fun h => har (h ▸ hx)
          have hnk : x ∉ (cut (keepIn O) a k).2.roots := fun h => hd x (hkn x (Or.inr (roots_subset _ h))) hx
          simp [hxa, hnk]
        unfold Relinked at h3 ⊢
        simp only [this]
        exact h3
    · rw [cut]
      split
      · exact ⟨hSa, hSk, hS4⟩
      · exact hS4
    · rw [cut]
      split
      · exact (shows_append _ _ _).2 ⟨hSk', hS4'⟩
      · exact ⟨hSa, hSk, (shows_append _ _ _).2 ⟨hSk', hS4'⟩⟩

/-- `LevelUpDetachedMembers` for each root of a forest. -/
theorem levelUpEach_ok (O : List (Sub K D)) (fuel : Nat) : ∀ (f : Forest Nat) (subs : List (Sub K D)),
    f.height ≤ fuel → f.nodes.Nodup → f.Shows (idxKids O) → (∀ x ∈ f.nodes, subs[x]? = O[x]?) →
    ∃ subs', levelUpEach fuel f.roots subs = .ok subs' ∧
      Leveled O subs subs' f.nodes (cutAll (keepIn O) f).2.roots ∧
      (cutAll (keepIn O) f).1.Shows (idxKids subs') ∧ (cutAll (keepIn O) f).2.Shows (idxKids subs') := by
  intro f
  induction f with
  | nil =>
    intro subs _ _ _ _
    exact ⟨subs, rfl, ⟨rfl, fun _ _ => rfl, fun x hx => by simp at hx⟩, trivial, trivial⟩
  | cons a k r ihk ihr =>
    clear ihk
    intro subs hh hn hs hag
    obtain ⟨⟨sa, ha, hna⟩, hsk, hsr⟩ := hs
    rw [nodes_cons, List.nodup_cons, List.nodup_append, List.mem_append] at hn
    obtain ⟨hn1, hn2, hn3, hn4⟩ := hn
    have hak : a ∉ k.nodes := fun h => hn1 (Or.inl h)
    have har : a ∉ r.nodes := fun h => hn1 (Or.inr h)
    have hd : ∀ x ∈ k.nodes, x ∉ r.nodes := fun x hx hx' => hn4 x hx x hx' rfl
    simp only [height] at hh
    obtain ⟨m, rfl⟩ : ∃ m, fuel = m + 1 := ⟨fuel - 1, by omega⟩
    have hsuba : subs[a]? = some sa := by rw [hag a (by simp), ha]
    obtain ⟨subs2, hk, hL2, hS2, hS2'⟩ := levelUpKids_ok O k m a sa subs ha (by omega) hn2 hsk (by
      intro x hx
      rw [hag x (by simp [hx])])
    have h2a : subs2[a]? = some sa := by rw [hL2.out a hak, hsuba]
    have h2lt : a < subs2.length := (List.getElem?_eq_some_iff.1 h2a).1
    let subs3 := subs2.set a (sa.withNested (ints (cut (keepIn O) a k).1.roots))
    have hrec : levelUpMembers (m + 1) a subs = .ok subs3 := by
      rw [levelUpMembers, get_some hsuba]
      simp only [Outcome.bind_ok]
      rw [hna, hk]
      simp only [Outcome.bind_ok]
      rw [get_some h2a]
      simp only [Outcome.bind_ok]
      rw [Outcome.set_of_lt h2lt]
    have h3a : subs3[a]? = some (sa.withNested (ints (cut (keepIn O) a k).1.roots)) := by
      simp [subs3, h2lt]
    have h3o : ∀ x, x ≠ a → subs3[x]? = subs2[x]? := by
      intro x hx
      simp [subs3, Ne.symm hx]
    obtain ⟨subs4, hr, hL4, hS4, hS4'⟩ := ihr subs3 (by omega) hn3 hsr (by
      intro x hx
      have hxa : x ≠ a := fun h => har (h ▸ hx)
      have hxk : x ∉ k.nodes := fun h => hd x h hx
      rw [h3o x hxa, hL2.out x hxk, hag x (by simp [hx])])
    have h4a : subs4[a]? = some (sa.withNested (ints (cut (keepIn O) a k).1.roots)) := by
      rw [hL4.out a har, h3a]
    have h4k : ∀ x ∈ k.nodes, subs4[x]? = subs2[x]? := by
      intro x hx
      rw [hL4.out x (hd x hx), h3o x (fun h => hak (h ▸ hx))]
    have hkn : ∀ x, x ∈ (cut (keepIn O) a k).1.nodes ∨ x ∈ (cut (keepIn O) a k).2.nodes → x ∈ k.nodes := by
      intro x hx
      exact (cut_nodes (keepIn O) a k).mem_iff.1 (List.mem_append.2 hx)
    have hrn : ∀ x, x ∈ (cutAll (keepIn O) r).1.nodes ∨ x ∈ (cutAll (keepIn O) r).2.nodes → x ∈ r.nodes := by
      intro x hx
      exact (cutAll_nodes (keepIn O) r).mem_iff.1 (List.mem_append.2 hx)
    have hSk : (cut (keepIn O) a k).1.Shows (idxKids subs4) := by
      refine shows_congr _ ?_ hS2
      rintro x hx l ⟨s, h1, h2⟩
      exact ⟨s, by rw [h4k x (hkn x (Or.inl hx)), h1], h2⟩
    have hSk' : (cut (keepIn O) a k).2.Shows (idxKids subs4) := by
      refine shows_congr _ ?_ hS2'
      rintro x hx l ⟨s, h1, h2⟩
      exact ⟨s, by rw [h4k x (hkn x (Or.inr hx)), h1], h2⟩
    have hzs : ∀ y, y ∈ (cutAll (keepIn O) (cons a k r)).2.roots ↔
        y ∈ (cut (keepIn O) a k).2.roots ∨ y ∈ (cutAll (keepIn O) r).2.roots := by
      intro y
      rw [cutAll]
      simp
    refine ⟨subs4, ?_, ⟨?_, ?_, ?_⟩, ⟨⟨_, h4a, rfl⟩, hSk, hS4⟩, (shows_append _ _ _).2 ⟨hSk', hS4'⟩⟩
    · rw [roots_cons, levelUpEach, hrec]
      simp only [Outcome.bind_ok]
      exact hr
    · have : subs3.length = subs2.length := by simp [subs3]
      rw [hL4.len, this, hL2.len]
    · intro x hx
      rw [nodes_cons, List.mem_cons, List.mem_append, not_or, not_or] at hx
      rw [hL4.out x hx.2.2, h3o x hx.1, hL2.out x hx.2.1]
    · intro x hx
      rw [nodes_cons, List.mem_cons, List.mem_append] at hx
      rcases hx with rfl | hx | hx
      · refine ⟨sa, _, ha, h4a, ?_⟩
        have hnk : x ∉ (cut (keepIn O) x k).2.roots := fun h => hak (hkn x (Or.inr (roots_subset _ h)))
        have hnr : x ∉ (cutAll (keepIn O) r).2.roots := fun h => har (hrn x (Or.inr (roots_subset _ h)))
        unfold Relinked
        rw [if_neg (by rw [hzs]; simp [hnk, hnr])]
        rfl
      · obtain ⟨s, s', h1, h2, h3⟩ := hL2.inn x hx
        refine ⟨s, s', h1, by rw [h4k x hx, h2], ?_⟩
        have : x ∈ (cutAll (keepIn O) (cons a k r)).2.roots ↔ x ∈ (cut (keepIn O) a k).2.roots := by
          rw [hzs]
          have hnr : x ∉ (cutAll (keepIn O) r).2.roots := fun h => hd x hx (hrn x (Or.inr (roots_subset _ h)))
          simp [hnr]
        unfold Relinked at h3 ⊢
        simp only [this]
        exact h3
      · obtain ⟨s, s', h1, h2, h3⟩ := hL4.inn x hx
        refine ⟨s, s', h1, h2, ?_⟩
        have : x ∈ (cutAll (keepIn O) (cons a k r)).2.roots ↔ x ∈ (cutAll (keepIn O) r).2.roots := by
          rw [hzs]
          have hnk : x ∉ (cut (keepIn O) a k).2.roots := fun h => hd x (hkn x (Or.inr (roots_subset _ h))) hx
          simp [hnk]
        unfold Relinked at h3 ⊢
        simp only [this]
        exact h3

/-! ## The forest of one process -/

/-- The nests of `subs` (local indices) are described by the forest `F`, in which every subhalo occurs
exactly once, and the subhaloes of rank 0 are its roots. -/
structure IdxForest (subs : List (Sub K D)) (F : Forest Nat) : Prop where
  nodes : F.nodes.Perm (List.range subs.length)
  shows_ : F.Shows (idxKids subs)
  rank : ∀ (i : Nat) (s : Sub K D), subs[i]? = some s → (s.rank = 0 ↔ i ∈ F.roots)

theorem IdxForest.nodup {subs : List (Sub K D)} {F : Forest Nat} (h : IdxForest subs F) : F.nodes.Nodup :=
  h.nodes.nodup_iff.2 List.nodup_range

theorem IdxForest.mem {subs : List (Sub K D)} {F : Forest Nat} (h : IdxForest subs F) {i : Nat} :
    i ∈ F.nodes ↔ i < subs.length := by rw [h.nodes.mem_iff, List.mem_range]

/-- The two subhaloes are in the same host. -/
def SameHost (subs : List (Sub K D)) (a c : Nat) : Prop :=
  ∃ s t, subs[a]? = some s ∧ subs[c]? = some t ∧ t.hostHaloId = s.hostHaloId

/-- Nothing but rank and nest differ. -/
def Framed (s s' : Sub K D) : Prop := s' = (s.withRank s'.rank).withNested s'.nested

theorem Framed.refl (s : Sub K D) : Framed s s := rfl

theorem Framed.trans {a b c : Sub K D} (h : Framed a b) (h' : Framed b c) : Framed a c := by
  unfold Framed at *
  rw [h] at h'
  rw [h']
  rfl

theorem Relinked.framed {z : Prop} [Decidable z] {s s' : Sub K D} (h : Relinked z s s') : Framed s s' := by
  unfold Framed Relinked at *
  rw [h]
  rfl

/-- The lists agree entry by entry, except for ranks and nests. -/
def AllFramed (subs subs' : List (Sub K D)) : Prop := List.Forall₂ Framed subs subs'

theorem allFramed_iff {subs subs' : List (Sub K D)} : AllFramed subs subs' ↔
    subs'.length = subs.length ∧ ∀ (i : Nat) (s : Sub K D), subs[i]? = some s → ∃ s', subs'[i]? = some s' ∧ Framed s s' := by
  unfold AllFramed
  rw [List.forall₂_iff_get]
  constructor
  · rintro ⟨h1, h2⟩
    refine ⟨h1.symm, fun i s hs => ?_⟩
    obtain ⟨hi, rfl⟩ := List.getElem?_eq_some_iff.1 hs
    exact ⟨subs'[i]'(h1 ▸ hi), List.getElem?_eq_getElem _, h2 i hi (h1 ▸ hi)⟩
  · rintro ⟨h1, h2⟩
    refine ⟨h1.symm, fun i hi hi' => ?_⟩
    obtain ⟨s', e, hf⟩ := h2 i subs[i] (List.getElem?_eq_getElem hi)
    rw [List.getElem?_eq_getElem hi'] at e
    cases e
    exact hf

theorem shows_mem {α : Type} {kids : α → List α → Prop} {x : α} : ∀ {f : Forest α}, f.Shows kids → x ∈ f.nodes → ∃ l, kids x l
  | .nil, _, h => by simp at h
  | .cons b k r, hs, h => by
    rw [nodes_cons, List.mem_cons, List.mem_append] at h
    rcases h with rfl | h | h
    · exact ⟨_, hs.1⟩
    · exact shows_mem hs.2.1 h
    · exact shows_mem hs.2.2 h

theorem rankZero_ok : ∀ (ids : List Nat) (subs : List (Sub K D)), (∀ i ∈ ids, i < subs.length) →
    ∃ subs', rankZero ids subs = .ok subs' ∧ subs'.length = subs.length ∧
      ∀ (x : Nat) (s : Sub K D), subs[x]? = some s →
        subs'[x]? = some (s.withRank (if x ∈ ids then 0 else s.rank)) := by
  intro ids
  induction ids with
  | nil => intro subs _; exact ⟨subs, rfl, rfl, fun x s hs => by simpa [Sub.withRank] using hs⟩
  | cons id ids ih =>
    intro subs hlt
    have hid : id < subs.length := hlt id (by simp)
    obtain ⟨subs', h1, h2, h3⟩ := ih (subs.set id (subs[id].withRank 0)) (by
      intro i hi; rw [List.length_set]; exact hlt i (by simp [hi]))
    refine ⟨subs', ?_, by rw [h2, List.length_set], ?_⟩
    · rw [rankZero, Outcome.get_of_lt hid]
      simp only [Outcome.bind_ok]
      rw [Outcome.set_of_lt hid]
      simp only [Outcome.bind_ok]
      exact h1
    · intro x s hs
      by_cases hx : x = id
      · subst hx
        have e : subs[x] = s := (List.getElem?_eq_some_iff.1 hs).2
        rw [h3 x (s.withRank 0) (by simp [hid, e])]
        simp [Sub.withRank]
      · rw [h3 x s (by simpa [Ne.symm hx] using hs)]
        simp [hx]

/-- Reordering `F` so that its roots come in the order `l`. -/
theorem IdxForest.reorder {subs : List (Sub K D)} {F : Forest Nat} (h : IdxForest subs F) {l : List Nat}
    (hp : F.roots.Perm l) : ∃ G, IdxForest subs G ∧ G.roots = l := by
  obtain ⟨G, h1, h2, h3, _⟩ := exists_reorder hp F rfl
  refine ⟨G, ⟨h2.trans h.nodes, h3 _ h.shows_, fun i s hs => ?_⟩, h1⟩
  rw [h.rank i s hs, h1, hp.mem_iff]

/-- What `LevelUpDetachedSubhalos` establishes: a forest in which parents and children share their host,
and the field subhaloes nest nothing. -/
structure HostForest (subs : List (Sub K D)) (F : Forest Nat) : Prop extends IdxForest subs F where
  edges : F.Edges (SameHost subs)
  field : ∀ (i : Nat) (s : Sub K D), subs[i]? = some s → s.hostHaloId = nullHalo → s.rank = 0 ∧ s.nested = []

theorem levelUpDetached_ok (fuel : Nat) (order : List Nat) (groups : List (List Nat)) (field : List Nat)
    (subs : List (Sub K D)) (F : Forest Nat) (hF : IdxForest subs F) (hfuel : subs.length ≤ fuel)
    (horder : order.Perm (List.range subs.length)) (hg : ∀ g ∈ groups, ∀ i ∈ g, i < subs.length)
    (hfield : ∀ i, i ∈ field ↔ ∃ s, subs[i]? = some s ∧ s.hostHaloId = nullHalo) :
    ∃ subs' G, levelUpDetached fuel order groups field subs = .ok subs' ∧ AllFramed subs subs' ∧
      HostForest subs' G ∧ (∀ c ∈ centralsOf groups, c ∈ G.roots) := by
  have hc : ∀ i ∈ centralsOf groups, i < subs.length := by
    intro i hi
    unfold centralsOf at hi
    obtain ⟨g, hgm, hh⟩ := List.mem_filterMap.1 hi
    exact hg g hgm i (List.mem_of_mem_head? hh)
  obtain ⟨subs1, e1, l1, p1⟩ := rankZero_ok (centralsOf groups) subs hc
  obtain ⟨O, e2, l2, p2⟩ := rankZero_ok field subs1 (by
    intro i hi
    obtain ⟨s, hs, _⟩ := (hfield i).1 hi
    rw [l1]
    exact (List.getElem?_eq_some_iff.1 hs).1)
  have hO : ∀ (x : Nat) (s : Sub K D), subs[x]? = some s → ∃ t, O[x]? = some t ∧ t = s.withRank t.rank ∧
      (t.rank = 0 ↔ x ∈ F.roots ∨ x ∈ centralsOf groups ∨ x ∈ field) := by
    intro x s hs
    refine ⟨_, p2 x _ (p1 x s hs), by simp [Sub.withRank], ?_⟩
    have hr := hF.rank x s hs
    simp only [Sub.withRank_rank]
    by_cases h1 : x ∈ field
    · simp [h1]
    · by_cases h2 : x ∈ centralsOf groups
      · simp [h1, h2]
      · simp [h1, h2, hr]
  have hlen : O.length = subs.length := by rw [l2, l1]
  -- the heads, in the order in which they are processed
  have hheads : F.roots.Perm (order.filter (fun i => (subs.map (fun s => decide (s.rank = 0)))[i]? == some true)) := by
    rw [List.perm_ext_iff_of_nodup ((roots_sublist F).nodup hF.nodup)
      ((horder.nodup_iff.2 List.nodup_range).filter _)]
    intro i
    rw [List.mem_filter, horder.mem_iff, List.mem_range]
    constructor
    · intro hi
      have hlt := hF.mem.1 (roots_subset F hi)
      refine ⟨hlt, ?_⟩
      have := (hF.rank i subs[i] (List.getElem?_eq_getElem hlt)).2 hi
      simp [hlt, this]
    · rintro ⟨hlt, hi⟩
      refine (hF.rank i subs[i] (List.getElem?_eq_getElem hlt)).1 ?_
      simpa [hlt] using hi
  obtain ⟨F1, hF1, hr1⟩ := hF.reorder hheads
  have hS1 : F1.Shows (idxKids O) := by
    refine shows_congr _ ?_ hF1.shows_
    rintro a ha l ⟨s, hs, hn⟩
    obtain ⟨t, ht, ht', _⟩ := hO a s hs
    exact ⟨t, ht, by rw [ht']; exact hn⟩
  have hroots : ∀ x, x ∈ F1.roots ↔ x ∈ F.roots := by
    intro x; rw [hr1, hheads.mem_iff]
  obtain ⟨subs', e3, hL, hS, hS'⟩ := levelUpEach_ok O fuel F1 O
    ((height_le F1).trans (by rw [hF1.nodes.length_eq, List.length_range]; exact hfuel)) hF1.nodup hS1 (fun _ _ => rfl)
  have hres : levelUpDetached fuel order groups field subs = .ok subs' := by
    rw [levelUpDetached, e1]
    simp only [Outcome.bind_ok]
    rw [e2]
    simp only [Outcome.bind_ok]
    rw [← hr1, e3]
  -- entry by entry
  have hent : ∀ (x : Nat) (s : Sub K D), subs[x]? = some s → ∃ t s', O[x]? = some t ∧ subs'[x]? = some s' ∧
      Relinked (x ∈ (cutAll (keepIn O) F1).2.roots) t s' ∧ t = s.withRank t.rank ∧
      (t.rank = 0 ↔ x ∈ F.roots ∨ x ∈ centralsOf groups ∨ x ∈ field) := by
    intro x s hs
    obtain ⟨t, ht, ht', hrk⟩ := hO x s hs
    obtain ⟨t', s', h1, h2, h3⟩ := hL.inn x (hF1.mem.2 (List.getElem?_eq_some_iff.1 hs).1)
    rw [ht] at h1
    cases h1
    exact ⟨t, s', ht, h2, h3, ht', hrk⟩
  have hlen' : subs'.length = subs.length := by rw [hL.len, hlen]
  have hfr : AllFramed subs subs' := by
    rw [allFramed_iff]
    refine ⟨hlen', fun x s hs => ?_⟩
    obtain ⟨t, s', h1, h2, h3, h4, _⟩ := hent x s hs
    refine ⟨s', h2, ?_⟩
    refine Framed.trans (b := t) ?_ h3.framed
    unfold Framed
    rw [h4]
    rfl
  have hsub : ∀ (x : Nat) (s' : Sub K D), subs'[x]? = some s' → ∃ s, subs[x]? = some s := by
    intro x s' hs'
    have hlt := (List.getElem?_eq_some_iff.1 hs').1
    rw [hlen'] at hlt
    exact ⟨subs[x], List.getElem?_eq_getElem hlt⟩
  let G := (cutAll (keepIn O) F1).1 ++ (cutAll (keepIn O) F1).2
  have hGr : ∀ x, x ∈ G.roots ↔ x ∈ F.roots ∨ x ∈ (cutAll (keepIn O) F1).2.roots := by
    intro x
    simp only [G, roots_append, List.mem_append, cutAll_roots, hroots]
  have hcut : ∀ (x : Nat) (t : Sub K D), O[x]? = some t → t.rank = 0 → x ∈ G.roots := by
    intro x t ht hr
    rw [hGr]
    have hx : x ∈ F1.nodes := by
      rw [hF1.mem, ← hlen]
      exact (List.getElem?_eq_some_iff.1 ht).1
    rcases root_or_child hx with h | ⟨a, ha⟩
    · exact Or.inl ((hroots x).1 h)
    · refine Or.inr ((mem_cutAll_detached _ _ _).2 ⟨a, ha, ?_⟩)
      unfold keepIn
      rw [ht]
      cases O[a]? with
      | none => rfl
      | some _ => simp [hr]
  have hG1 : IdxForest subs' G := by
    refine ⟨?_, (shows_append _ _ _).2 ⟨hS, hS'⟩, ?_⟩
    · rw [hlen', nodes_append]
      exact (cutAll_nodes _ _).trans hF1.nodes
    · intro x s' hs'
      obtain ⟨s, hs⟩ := hsub x s' hs'
      obtain ⟨t, s'', h1, h2, h3, h4, h5⟩ := hent x s hs
      rw [hs'] at h2
      cases h2
      constructor
      · intro hr
        by_cases hd : x ∈ (cutAll (keepIn O) F1).2.roots
        · exact (hGr x).2 (Or.inr hd)
        · rw [h3, if_neg hd] at hr
          exact hcut x t h1 hr
      · intro hr
        rw [h3]
        rcases (hGr x).1 hr with hr | hr
        · have := h5.2 (Or.inl hr)
          simp [this]
        · rw [if_pos hr]
          rfl
  have hedges : G.Edges (SameHost subs') := by
    refine edges_imp (R := fun a c => keepIn O a c = true) G ?_ ((edges_append _ _ _).2 (cutAll_edges _ _))
    intro a ha c hc hk
    obtain ⟨sa, hsa⟩ : ∃ s, subs[a]? = some s := ⟨subs[a]'(by rw [← hlen']; exact hG1.mem.1 ha), List.getElem?_eq_getElem _⟩
    obtain ⟨sc, hsc⟩ : ∃ s, subs[c]? = some s := ⟨subs[c]'(by rw [← hlen']; exact hG1.mem.1 hc), List.getElem?_eq_getElem _⟩
    obtain ⟨ta, sa', a1, a2, a3, a4, _⟩ := hent a sa hsa
    obtain ⟨tc, sc', c1, c2, c3, c4, _⟩ := hent c sc hsc
    refine ⟨sa', sc', a2, c2, ?_⟩
    unfold keepIn at hk
    rw [a1, c1] at hk
    simp only [Bool.and_eq_true, decide_eq_true_eq] at hk
    rw [a3, c3]
    exact hk.1
  refine ⟨subs', G, hres, hfr, ⟨hG1, hedges, ?_⟩, ?_⟩
  · intro x s' hs' hhost
    obtain ⟨s, hs⟩ := hsub x s' hs'
    have hfl : ∀ y t', subs'[y]? = some t' → t'.hostHaloId = nullHalo → y ∈ G.roots := by
      intro y t' ht' hh
      obtain ⟨u, hu⟩ := hsub y t' ht'
      obtain ⟨t, s'', h1, h2, h3, h4, h5⟩ := hent y u hu
      rw [ht'] at h2
      cases h2
      refine hcut y t h1 (h5.2 (Or.inr (Or.inr ((hfield y).2 ⟨u, hu, ?_⟩))))
      rw [h3, h4] at hh
      exact hh
    have hroot := hfl x s' hs' hhost
    refine ⟨(hG1.rank x s' hs').2 hroot, ?_⟩
    obtain ⟨l, s'', h1, h2⟩ := shows_mem hG1.shows_ (roots_subset _ hroot)
    rw [hs'] at h1
    cases h1
    cases l with
    | nil => exact h2
    | cons c l =>
      exfalso
      have hch : IsChild x c G := kids_isChild (idxKids_unique subs') ⟨s', hs', h2⟩ (by simp) hG1.shows_ (roots_subset _ hroot)
      obtain ⟨s1, t1, q1, q2, q3⟩ := (edges_iff _ _).1 hedges x c hch
      rw [hs'] at q1
      cases q1
      exact root_not_child hG1.nodup (hfl c t1 q2 (q3.trans hhost)) x hch
  · intro c hcm
    have hclt := hc c hcm
    obtain ⟨t, h1, _, h3⟩ := hO c subs[c] (List.getElem?_eq_getElem (hc c hcm))
    exact hcut c t h1 (h3.2 (Or.inr (Or.inl hcm)))

/-! ## `NestSubhalos`, `ExtendCentralNest` -/

/-- Has subhalo `i` rank 0? -/
def isTop (subs : List (Sub K D)) (i : Nat) : Bool :=
  match subs[i]? with
  | some s => decide (s.rank = 0)
  | none => false

theorem headsOf_ok (subs : List (Sub K D)) : ∀ ids : List Nat, (∀ i ∈ ids, i < subs.length) →
    headsOf subs ids = .ok (ids.filter (isTop subs)) := by
  intro ids
  induction ids with
  | nil => intro _; rfl
  | cons id ids ih =>
    intro h
    have hid : id < subs.length := h id (by simp)
    rw [headsOf, Outcome.get_of_lt hid]
    simp only [Outcome.bind_ok]
    rw [ih (fun i hi => h i (by simp [hi]))]
    simp only [Outcome.bind_ok]
    have e : isTop subs id = decide (subs[id].rank = 0) := by
      unfold isTop
      rw [List.getElem?_eq_getElem hid]
    rw [List.filter_cons, e]
    by_cases hr : subs[id].rank = 0
    · simp [hr]
    · simp [hr]

theorem headGroups_ok (subs : List (Sub K D)) : ∀ gs : List (List Nat), (∀ g ∈ gs, ∀ i ∈ g, i < subs.length) →
    headGroups subs gs = .ok (gs.map (fun g => g.filter (isTop subs))) := by
  intro gs
  induction gs with
  | nil => intro _; rfl
  | cons g gs ih =>
    intro h
    rw [headGroups, headsOf_ok subs g (h g (by simp))]
    simp only [Outcome.bind_ok]
    rw [ih (fun g' hg' => h g' (by simp [hg']))]
    rfl

/-- What `ExtendCentralNest` finds for one halo: the members `g`, the heads `h`, and the forest they
form. -/
structure Ready (subs : List (Sub K D)) (g h : List Nat) (f : Forest Nat) : Prop where
  nodup : g.Nodup
  nodes : f.nodes.Perm g
  roots : f.roots.Perm h
  shows_ : f.Shows (idxKids subs)
  edges : f.Edges (SameHost subs)
  rank : ∀ i ∈ g, ∃ s, subs[i]? = some s ∧ (s.rank = 0 ↔ i ∈ f.roots)

/-- What it leaves: one tree rooted at the first member. -/
def OneTree (subs : List (Sub K D)) (g : List Nat) : Prop :=
  ∀ c, g.head? = some c → ∃ k : Forest Nat, (Forest.cons c k .nil).Shows (idxKids subs) ∧
    (Forest.cons c k .nil).nodes.Perm g

theorem Ready.congr {subs subs' : List (Sub K D)} {g h : List Nat} {f : Forest Nat} (hr : Ready subs g h f)
    (he : ∀ i ∈ g, subs'[i]? = subs[i]?) : Ready subs' g h f where
  nodup := hr.nodup
  nodes := hr.nodes
  roots := hr.roots
  shows_ := by
    refine shows_congr f ?_ hr.shows_
    rintro a ha l ⟨s, h1, h2⟩
    exact ⟨s, by rw [he a (hr.nodes.mem_iff.1 ha), h1], h2⟩
  edges := by
    refine edges_imp f ?_ hr.edges
    rintro a ha c hc ⟨s, t, h1, h2, h3⟩
    exact ⟨s, t, by rw [he a (hr.nodes.mem_iff.1 ha), h1], by rw [he c (hr.nodes.mem_iff.1 hc), h2], h3⟩
  rank := by
    intro i hi
    obtain ⟨s, h1, h2⟩ := hr.rank i hi
    exact ⟨s, by rw [he i hi, h1], h2⟩

theorem extendOne_ok (fuel : Nat) (subs : List (Sub K D)) (g h : List Nat) (f : Forest Nat)
    (hr : Ready subs g h f) (hfuel : g.length ≤ fuel) :
    ∃ subs', extendOne fuel g h subs = .ok subs' ∧ subs'.length = subs.length ∧
      (∀ x, x ∉ g → subs'[x]? = subs[x]?) ∧
      (∀ x ∈ g, ∃ s s', subs[x]? = some s ∧ subs'[x]? = some s' ∧ Framed s s') ∧ OneTree subs' g := by
  have hfn : f.nodes.Nodup := hr.nodes.nodup_iff.2 hr.nodup
  have hself : ∀ x ∈ g, ∃ s s', subs[x]? = some s ∧ subs[x]? = some s' ∧ Framed s s' := by
    intro x hx
    obtain ⟨s, h1, _⟩ := hr.rank x hx
    exact ⟨s, s, h1, h1, Framed.refl s⟩
  match g, hr, hfuel, hself with
  | [], hr, _, hself =>
    exact ⟨subs, rfl, rfl, fun _ _ => rfl, hself, fun c hc => by simp at hc⟩
  | [c], hr, _, hself =>
    refine ⟨subs, rfl, rfl, fun _ _ => rfl, hself, fun c' hc => ?_⟩
    simp only [List.head?_cons, Option.some.injEq] at hc
    subst hc
    have hlen := hr.nodes.length_eq
    cases f with
    | nil => simp at hlen
    | cons a k r =>
      have hk : k = .nil := by
        cases k with
        | nil => rfl
        | cons _ _ _ => simp at hlen
      have hr' : r = .nil := by
        cases r with
        | nil => rfl
        | cons _ _ _ => simp at hlen
      subst hk hr'
      have ha : a = c := by
        have := hr.nodes.mem_iff.1 (show a ∈ (Forest.cons a .nil .nil).nodes by simp)
        simpa using this
      subst ha
      exact ⟨.nil, hr.shows_, hr.nodes⟩
  | c :: c2 :: g, hr, hfuel, hself =>
    obtain ⟨sc, hc1, hc2⟩ := hr.rank c (by simp)
    have hclt : c < subs.length := (List.getElem?_eq_some_iff.1 hc1).1
    have hhn : h.Nodup := hr.roots.nodup_iff.1 ((roots_sublist f).nodup hfn)
    by_cases hr0 : sc.rank = 0
    · -- already a central
      have hch : c ∈ h := hr.roots.mem_iff.1 (hc2.1 hr0)
      have hperm : f.roots.Perm (c :: h.filter (fun x => decide (x ≠ c))) := by
        refine hr.roots.trans ?_
        rw [List.perm_ext_iff_of_nodup hhn]
        · intro x
          rw [List.mem_cons, List.mem_filter]
          constructor
          · intro hx
            by_cases hxc : x = c
            · exact Or.inl hxc
            · exact Or.inr ⟨hx, by simpa using hxc⟩
          · rintro (rfl | hx)
            · exact hch
            · exact hx.1
        · rw [List.nodup_cons]
          exact ⟨fun hx => by simpa using (List.mem_filter.1 hx).2, hhn.filter _⟩
      obtain ⟨F, q1, q2, q3, q4⟩ := exists_reorder hperm f rfl
      cases F with
      | nil => simp at q1
      | cons a k r =>
        obtain ⟨rfl, q1r⟩ := List.cons.inj q1
        obtain ⟨⟨s, w1, w2⟩, w3, w4⟩ := q3 _ hr.shows_
        rw [hc1] at w1
        cases w1
        have hFn : (Forest.cons a k r).nodes.Nodup := q2.nodup_iff.2 hfn
        rw [nodes_cons, List.nodup_cons, List.mem_append, not_or] at hFn
        refine ⟨subs.set a (sc.withNested (sc.nested ++ ints (h.filter (fun x => decide (x ≠ a))))), ?_, by simp, ?_, ?_, ?_⟩
        · rw [extendOne, get_some hc1]
          simp only [Outcome.bind_ok]
          rw [if_pos hr0, Outcome.set_of_lt hclt]
          · rfl
          · intro hx; cases hx
        · intro x hx
          rw [List.getElem?_set_ne (by rintro rfl; exact hx (by simp))]
        · intro x hx
          by_cases hxa : x = a
          · subst hxa
            exact ⟨sc, _, hc1, List.getElem?_set_self hclt, rfl⟩
          · obtain ⟨s, s', e1, e2, e3⟩ := hself x hx
            exact ⟨s, s', e1, by rw [List.getElem?_set_ne (Ne.symm hxa), e2], e3⟩
        · intro c' hc'
          simp only [List.head?_cons, Option.some.injEq] at hc'
          subst hc'
          refine ⟨k ++ r, ⟨⟨_, List.getElem?_set_self hclt, ?_⟩, ?_, trivial⟩, ?_⟩
          · rw [roots_append, ints_append, ← w2, q1r]
            rfl
          · rw [shows_append]
            refine ⟨shows_congr k ?_ w3, shows_congr r ?_ w4⟩
            · rintro x hx l ⟨s, e1, e2⟩
              exact ⟨s, by rw [List.getElem?_set_ne (by rintro rfl; exact hFn.1.1 hx), e1], e2⟩
            · rintro x hx l ⟨s, e1, e2⟩
              exact ⟨s, by rw [List.getElem?_set_ne (by rintro rfl; exact hFn.1.2 hx), e1], e2⟩
          · rw [nodes_cons, nodes_append, nodes_nil, List.append_nil]
            exact q2.trans hr.nodes
    · -- promotion of a nested subhalo
      have hcr : c ∉ f.roots := fun hx => hr0 (hc2.2 hx)
      obtain ⟨F, q1, q2, q3, q4⟩ := exists_reorder hr.roots f rfl
      have hFn : F.nodes.Nodup := q2.nodup_iff.2 hfn
      let O := subs.set c (sc.withRank 0)
      have hOc : O[c]? = some (sc.withRank 0) := by simp [O, hclt]
      have hOo : ∀ x, x ≠ c → O[x]? = subs[x]? := fun x hx => by simp [O, Ne.symm hx]
      have hS : F.Shows (idxKids O) := by
        refine shows_congr F ?_ (q3 _ hr.shows_)
        rintro x hx l ⟨s, e1, e2⟩
        by_cases hxc : x = c
        · subst hxc
          rw [hc1] at e1
          cases e1
          exact ⟨_, hOc, e2⟩
        · exact ⟨s, by rw [hOo x hxc, e1], e2⟩
      obtain ⟨subs2, e3, hL, hS1, hS2⟩ := levelUpEach_ok O fuel F O
        ((height_le F).trans (by rw [q2.length_eq, hr.nodes.length_eq]; exact hfuel)) hFn hS (fun _ _ => rfl)
      -- only the new central is cut off
      have hdet : (cutAll (keepIn O) F).2.roots = [c] := by
        have hmem : ∀ x, x ∈ (cutAll (keepIn O) F).2.roots ↔ x = c := by
          intro x
          rw [mem_cutAll_detached]
          constructor
          · rintro ⟨a, ha, hk⟩
            by_contra hxc
            obtain ⟨s, t, g1, g2, g3⟩ := (edges_iff _ _).1 (q4 _ hr.edges) a x ha
            have hxg : x ∈ c :: c2 :: g := hr.nodes.mem_iff.1 (q2.mem_iff.1 (isChild_mem ha).2)
            obtain ⟨t', g4, g5⟩ := hr.rank x hxg
            rw [g2] at g4
            cases g4
            have hxr : x ∉ f.roots := fun hx => root_not_child hFn (by rw [q1]; exact hr.roots.mem_iff.1 hx) a ha
            have hOa : ∃ s', O[a]? = some s' ∧ s'.hostHaloId = s.hostHaloId := by
              by_cases hac : a = c
              · subst hac
                rw [hc1] at g1
                cases g1
                exact ⟨_, hOc, rfl⟩
              · exact ⟨s, by rw [hOo a hac, g1], rfl⟩
            obtain ⟨s', o1, o2⟩ := hOa
            unfold keepIn at hk
            rw [o1, hOo x hxc, g2] at hk
            simp only [Bool.and_eq_false_iff, decide_eq_false_iff_not] at hk
            rcases hk with hk | hk
            · exact hk (by rw [o2]; exact g3)
            · exact hk (fun h0 => hxr (g5.1 h0))
          · rintro rfl
            have hxF : x ∈ F.nodes := by rw [q2.mem_iff, hr.nodes.mem_iff]; simp
            rcases root_or_child hxF with hx | ⟨a, ha⟩
            · rw [q1] at hx
              exact absurd (hr.roots.mem_iff.2 hx) hcr
            · refine ⟨a, ha, ?_⟩
              unfold keepIn
              rw [hOc]
              cases O[a]? <;> simp
        have hnd : (cutAll (keepIn O) F).2.roots.Nodup := by
          refine (roots_sublist _).nodup ?_
          exact (List.nodup_append.1 ((cutAll_nodes (keepIn O) F).nodup_iff.2 hFn)).2.1
        have := (List.perm_ext_iff_of_nodup hnd (List.nodup_singleton c)).2 (fun x => by rw [hmem]; simp)
        exact List.perm_singleton.1 this
      obtain ⟨k, hk⟩ : ∃ k, (cutAll (keepIn O) F).2 = Forest.cons c k .nil := by
        cases hd : (cutAll (keepIn O) F).2 with
        | nil => rw [hd] at hdet; simp at hdet
        | cons a k r =>
          rw [hd, roots_cons, List.cons.injEq] at hdet
          cases r with
          | nil => exact ⟨k, by rw [hdet.1]⟩
          | cons _ _ _ => simp at hdet
      have hperm := cutAll_nodes (keepIn O) F
      rw [hk] at hS2 hperm
      obtain ⟨⟨sc', v1, v2⟩, v3, -⟩ := hS2
      have hc2lt : c < subs2.length := (List.getElem?_eq_some_iff.1 v1).1
      have hpn := hperm.nodup_iff.2 hFn
      rw [nodes_cons, nodes_nil, List.append_nil] at hpn hperm
      have hpn2 := List.nodup_append.1 hpn
      have hck : c ∉ k.nodes := (List.nodup_cons.1 hpn2.2.1).1
      have hc1' : c ∉ (cutAll (keepIn O) F).1.nodes := fun hx => hpn2.2.2 c hx c (by simp) rfl
      have hmemg : ∀ x, x ∈ F.nodes ↔ x ∈ c :: c2 :: g := fun x => by rw [q2.mem_iff, hr.nodes.mem_iff]
      refine ⟨subs2.set c (sc'.withNested (sc'.nested ++ ints h)), ?_, ?_, ?_, ?_, ?_⟩
      · rw [extendOne, get_some hc1]
        simp only [Outcome.bind_ok]
        rw [if_neg hr0, Outcome.set_of_lt hclt]
        simp only [Outcome.bind_ok]
        rw [← q1, e3]
        simp only [Outcome.bind_ok]
        rw [get_some v1]
        simp only [Outcome.bind_ok]
        rw [Outcome.set_of_lt hc2lt]
        · rfl
        · intro hx; cases hx
      · rw [List.length_set, hL.len]
        simp [O]
      · intro x hx
        rw [List.getElem?_set_ne (by rintro rfl; exact hx (by simp)), hL.out x (fun h => hx ((hmemg x).1 h)),
          hOo x (by rintro rfl; exact hx (by simp))]
      · intro x hx
        obtain ⟨t, s', g1, g2, g3⟩ := hL.inn x ((hmemg x).2 hx)
        by_cases hxc : x = c
        · subst hxc
          rw [hOc] at g1
          cases g1
          rw [v1] at g2
          cases g2
          refine ⟨sc, _, hc1, List.getElem?_set_self hc2lt, ?_⟩
          have := g3.framed
          unfold Framed at *
          rw [this]
          rfl
        · refine ⟨t, s', by rw [← hOo x hxc, g1], by rw [List.getElem?_set_ne (Ne.symm hxc), g2], g3.framed⟩
      · intro c' hc'
        simp only [List.head?_cons, Option.some.injEq] at hc'
        subst hc'
        refine ⟨k ++ (cutAll (keepIn O) F).1, ⟨⟨_, List.getElem?_set_self hc2lt, ?_⟩, ?_, trivial⟩, ?_⟩
        · rw [roots_append, ints_append, cutAll_roots, q1, ← v2]
          rfl
        · rw [shows_append]
          refine ⟨shows_congr k ?_ v3, shows_congr _ ?_ hS1⟩
          · rintro x hx l ⟨s, e1, e2⟩
            exact ⟨s, by rw [List.getElem?_set_ne (by rintro rfl; exact hck hx), e1], e2⟩
          · rintro x hx l ⟨s, e1, e2⟩
            exact ⟨s, by rw [List.getElem?_set_ne (by rintro rfl; exact hc1' hx), e1], e2⟩
        · rw [nodes_cons, nodes_append, nodes_nil, List.append_nil]
          refine List.Perm.trans ?_ (hperm.trans (q2.trans hr.nodes))
          exact List.perm_append_comm (l₁ := c :: k.nodes)

theorem OneTree.congr {subs subs' : List (Sub K D)} {g : List Nat} (h : OneTree subs g)
    (he : ∀ i ∈ g, subs'[i]? = subs[i]?) : OneTree subs' g := by
  intro c hc
  obtain ⟨k, h1, h2⟩ := h c hc
  refine ⟨k, shows_congr _ ?_ h1, h2⟩
  rintro a ha l ⟨s, e1, e2⟩
  exact ⟨s, by rw [he a (h2.mem_iff.1 ha), e1], e2⟩

/-- What `ExtendCentralNest` needs of the members `g` and the heads `h` of one halo. -/
def CanExtend (subs : List (Sub K D)) (g h : List Nat) : Prop :=
  (∃ f, Ready subs g h f) ∨ g = [] ∨ ∃ c s, g = [c] ∧ subs[c]? = some s ∧ s.nested = []

theorem CanExtend.congr {subs subs' : List (Sub K D)} {g h : List Nat} (hr : CanExtend subs g h)
    (he : ∀ i ∈ g, subs'[i]? = subs[i]?) : CanExtend subs' g h := by
  rcases hr with ⟨f, hf⟩ | rfl | ⟨c, s, rfl, h1, h2⟩
  · exact Or.inl ⟨f, hf.congr he⟩
  · exact Or.inr (Or.inl rfl)
  · exact Or.inr (Or.inr ⟨c, s, rfl, by rw [he c (by simp), h1], h2⟩)

theorem extendOne_ok' (fuel : Nat) (subs : List (Sub K D)) (g h : List Nat)
    (hr : CanExtend subs g h) (hfuel : g.length ≤ fuel) :
    ∃ subs', extendOne fuel g h subs = .ok subs' ∧ subs'.length = subs.length ∧
      (∀ x, x ∉ g → subs'[x]? = subs[x]?) ∧
      (∀ x ∈ g, ∃ s s', subs[x]? = some s ∧ subs'[x]? = some s' ∧ Framed s s') ∧ OneTree subs' g := by
  rcases hr with ⟨f, hf⟩ | rfl | ⟨c, s, rfl, h1, h2⟩
  · exact extendOne_ok fuel subs g h f hf hfuel
  · exact ⟨subs, rfl, rfl, fun _ _ => rfl, fun x hx => by simp at hx, fun c hc => by simp at hc⟩
  · refine ⟨subs, rfl, rfl, fun _ _ => rfl, fun x hx => ?_, fun c' hc => ?_⟩
    · rw [List.mem_singleton] at hx
      subst hx
      exact ⟨s, s, h1, h1, Framed.refl s⟩
    · simp only [List.head?_cons, Option.some.injEq] at hc
      subst hc
      exact ⟨.nil, ⟨⟨s, h1, h2⟩, trivial, trivial⟩, List.Perm.refl _⟩

theorem extendNests_ok (fuel : Nat) : ∀ (gs hs : List (List Nat)) (subs : List (Sub K D)),
    gs.flatten.Nodup → (∀ g ∈ gs, g.length ≤ fuel) →
    List.Forall₂ (CanExtend subs) gs hs →
    ∃ subs', extendNests fuel gs hs subs = .ok subs' ∧ subs'.length = subs.length ∧
      (∀ x, x ∉ gs.flatten → subs'[x]? = subs[x]?) ∧
      (∀ x ∈ gs.flatten, ∃ s s', subs[x]? = some s ∧ subs'[x]? = some s' ∧ Framed s s') ∧
      ∀ g ∈ gs, OneTree subs' g := by
  intro gs
  induction gs with
  | nil =>
    intro hs subs _ _ _
    refine ⟨subs, ?_, rfl, fun _ _ => rfl, fun x hx => by simp at hx, fun g hg => by simp at hg⟩
    cases hs <;> rfl
  | cons g gs ih =>
    intro hs subs hnd hfuel hr
    cases hr with
    | cons h1 h2 =>
      rename_i h hs
      rw [List.flatten_cons, List.nodup_append] at hnd
      obtain ⟨subs1, e1, l1, o1, i1, t1⟩ := extendOne_ok' fuel subs g h h1 (hfuel g (by simp))
      have hdis : ∀ x ∈ gs.flatten, x ∉ g := fun x hx hg => hnd.2.2 x hg x hx rfl
      obtain ⟨subs2, e2, l2, o2, i2, t2⟩ := ih hs subs1 hnd.2.1 (fun g' hg' => hfuel g' (by simp [hg']))
        (by
          have hw : ∀ g' ∈ gs, ∀ i ∈ g', subs1[i]? = subs[i]? := by
            intro g' hg' i hi
            exact o1 i (hdis i (List.mem_flatten.2 ⟨g', hg', hi⟩))
          clear e1 t1 i1 ih hfuel hdis hnd h1
          induction h2 with
          | nil => exact List.Forall₂.nil
          | cons a b ih' =>
            exact List.Forall₂.cons (a.congr (hw _ (by simp))) (ih' (fun g' hg' => hw g' (by simp [hg']))))
      refine ⟨subs2, ?_, by rw [l2, l1], ?_, ?_, ?_⟩
      · rw [extendNests, e1]
        simp only [Outcome.bind_ok]
        exact e2
      · intro x hx
        rw [List.flatten_cons, List.mem_append, not_or] at hx
        rw [o2 x hx.2, o1 x hx.1]
      · intro x hx
        rw [List.flatten_cons, List.mem_append] at hx
        rcases hx with hx | hx
        · obtain ⟨s, s', a1, a2, a3⟩ := i1 x hx
          exact ⟨s, s', a1, by rw [o2 x (fun h => hdis x h hx), a2], a3⟩
        · obtain ⟨s, s', a1, a2, a3⟩ := i2 x hx
          exact ⟨s, s', by rw [← o1 x (hdis x hx), a1], a2, a3⟩
      · intro g' hg'
        rcases List.mem_cons.1 hg' with rfl | hg'
        · exact t1.congr (fun i hi => o2 i (fun h => hdis i h hi))
        · exact t2 g' hg'

/-! ## `FillDepth` -/

/-- The depth recorded for subhalo `a`. -/
def idxDepth (subs : List (Sub K D)) (a : Nat) (d : Int) : Prop := ∃ s, subs[a]? = some s ∧ s.depth = d

theorem fillDepthKids_ok : ∀ (f : Forest Nat) (fuel : Nat) (d : Int) (subs : List (Sub K D)),
    f.height ≤ fuel → f.nodes.Nodup → f.Shows (idxKids subs) →
    ∃ subs', fillDepthKids (fillDepthRec fuel d) (ints f.roots) subs = .ok subs' ∧ subs'.length = subs.length ∧
      (∀ x, x ∉ f.nodes → subs'[x]? = subs[x]?) ∧
      (∀ x ∈ f.nodes, ∃ s e, subs[x]? = some s ∧ subs'[x]? = some (s.withDepth e)) ∧
      f.Depths (idxDepth subs') d := by
  intro f
  induction f with
  | nil =>
    intro fuel d subs _ _ _
    exact ⟨subs, rfl, rfl, fun _ _ => rfl, fun x hx => by simp at hx, trivial⟩
  | cons a k r ihk ihr =>
    intro fuel d subs hh hn hs
    obtain ⟨⟨sa, ha, hna⟩, hsk, hsr⟩ := hs
    rw [nodes_cons, List.nodup_cons, List.nodup_append, List.mem_append] at hn
    obtain ⟨hn1, hn2, hn3, hn4⟩ := hn
    have hak : a ∉ k.nodes := fun h => hn1 (Or.inl h)
    have har : a ∉ r.nodes := fun h => hn1 (Or.inr h)
    have hd : ∀ x ∈ k.nodes, x ∉ r.nodes := fun x hx hx' => hn4 x hx x hx' rfl
    simp only [height] at hh
    obtain ⟨fuel, rfl⟩ : ∃ m, fuel = m + 1 := ⟨fuel - 1, by omega⟩
    have halt : a < subs.length := (List.getElem?_eq_some_iff.1 ha).1
    let subs1 := subs.set a (sa.withDepth d)
    have h1a : subs1[a]? = some (sa.withDepth d) := List.getElem?_set_self halt
    have h1o : ∀ x, x ≠ a → subs1[x]? = subs[x]? := fun x hx => List.getElem?_set_ne (Ne.symm hx)
    obtain ⟨subs2, e2, l2, o2, i2, d2⟩ := ihk fuel (d + 1) subs1 (by omega) hn2 (by
      refine shows_congr k ?_ hsk
      rintro x hx l ⟨s, q1, q2⟩
      exact ⟨s, by rw [h1o x (by rintro rfl; exact hak hx), q1], q2⟩)
    have hrec : fillDepthRec (fuel + 1) d a subs = .ok subs2 := by
      rw [fillDepthRec, get_some ha]
      simp only [Outcome.bind_ok]
      rw [Outcome.set_of_lt halt]
      simp only [Outcome.bind_ok]
      rw [hna]
      exact e2
    obtain ⟨subs3, e3, l3, o3, i3, d3⟩ := ihr (fuel + 1) d subs2 (by omega) hn3 (by
      refine shows_congr r ?_ hsr
      rintro x hx l ⟨s, q1, q2⟩
      exact ⟨s, by rw [o2 x (fun h => hd x h hx), h1o x (by rintro rfl; exact har hx), q1], q2⟩)
    have h3k : ∀ x ∈ k.nodes, subs3[x]? = subs2[x]? := fun x hx => o3 x (hd x hx)
    have h3a : subs3[a]? = some (sa.withDepth d) := by rw [o3 a har, o2 a hak, h1a]
    refine ⟨subs3, ?_, ?_, ?_, ?_, ⟨_, h3a, rfl⟩, depths_congr k _ ?_ d2, d3⟩
    · rw [roots_cons, ints_cons, fillDepthKids, getI_some ha]
      simp only [Outcome.bind_ok, Int.toNat_natCast]
      rw [hrec]
      simp only [Outcome.bind_ok]
      exact e3
    · rw [l3, l2, List.length_set]
    · intro x hx
      rw [nodes_cons, List.mem_cons, List.mem_append, not_or, not_or] at hx
      rw [o3 x hx.2.2, o2 x hx.2.1, h1o x hx.1]
    · intro x hx
      rw [nodes_cons, List.mem_cons, List.mem_append] at hx
      rcases hx with rfl | hx | hx
      · exact ⟨sa, d, ha, h3a⟩
      · obtain ⟨s, e, q1, q2⟩ := i2 x hx
        exact ⟨s, e, by rw [← h1o x (by rintro rfl; exact hak hx), q1], by rw [h3k x hx, q2]⟩
      · obtain ⟨s, e, q1, q2⟩ := i3 x hx
        exact ⟨s, e, by rw [← h1o x (by rintro rfl; exact har hx), ← o2 x (fun h => hd x h hx), q1], q2⟩
    · rintro x hx e ⟨s, q1, q2⟩
      exact ⟨s, by rw [h3k x hx, q1], q2⟩

theorem fillDepthRec_eq_kids (fuel : Nat) (d : Int) (c : Nat) (subs : List (Sub K D)) (hc : c < subs.length) :
    fillDepthRec fuel d c subs = fillDepthKids (fillDepthRec fuel d) [(c : Int)] subs := by
  rw [fillDepthKids, getI_some (List.getElem?_eq_getElem hc)]
  simp only [Outcome.bind_ok, Int.toNat_natCast]
  cases fillDepthRec fuel d c subs <;> rfl

theorem fillDepth_ok (fuel : Nat) : ∀ (gs : List (List Nat)) (subs : List (Sub K D)),
    gs.flatten.Nodup → (∀ g ∈ gs, g.length ≤ fuel) → (∀ g ∈ gs, OneTree subs g) →
    ∃ subs', fillDepth fuel gs subs = .ok subs' ∧ subs'.length = subs.length ∧
      (∀ x, x ∉ gs.flatten → subs'[x]? = subs[x]?) ∧
      (∀ x ∈ gs.flatten, ∃ s e, subs[x]? = some s ∧ subs'[x]? = some (s.withDepth e)) ∧
      ∀ g ∈ gs, ∀ c, g.head? = some c → ∃ k : Forest Nat, (Forest.cons c k .nil).Shows (idxKids subs') ∧
        (Forest.cons c k .nil).nodes.Perm g ∧ (Forest.cons c k .nil).Depths (idxDepth subs') 0 := by
  intro gs
  induction gs with
  | nil =>
    intro subs _ _ _
    exact ⟨subs, rfl, rfl, fun _ _ => rfl, fun x hx => by simp at hx, fun g hg => by simp at hg⟩
  | cons g gs ih =>
    intro subs hnd hfuel ht
    rw [List.flatten_cons, List.nodup_append] at hnd
    have hdis : ∀ x ∈ gs.flatten, x ∉ g := fun x hx hg => hnd.2.2 x hg x hx rfl
    cases hg : g with
    | nil =>
      obtain ⟨subs', e, l, o, i, t⟩ := ih subs hnd.2.1 (fun g' hg' => hfuel g' (by simp [hg']))
        (fun g' hg' => ht g' (by simp [hg']))
      refine ⟨subs', ?_, l, by simpa using o, by simpa using i, ?_⟩
      · unfold fillDepth centralsOf at *
        rw [List.filterMap_cons]
        exact e
      · intro g' hg' c hc
        rcases List.mem_cons.1 hg' with rfl | hg'
        · simp at hc
        · exact t g' hg' c hc
    | cons c tl =>
      have hgc : g.head? = some c := by simp [hg]
      obtain ⟨k, hk1, hk2⟩ := ht g (by simp) c hgc
      have hkn : (Forest.cons c k .nil).nodes.Nodup := hk2.nodup_iff.2 hnd.1
      have hclt : c < subs.length := by
        obtain ⟨⟨s, q, _⟩, _⟩ := hk1
        exact (List.getElem?_eq_some_iff.1 q).1
      obtain ⟨subs1, e1, l1, o1, i1, d1⟩ := fillDepthKids_ok (Forest.cons c k .nil) fuel 0 subs
        ((height_le _).trans (by rw [hk2.length_eq]; exact hfuel g (by simp))) hkn hk1
      have hog : ∀ x, x ∉ g → subs1[x]? = subs[x]? := fun x hx => o1 x (fun h => hx (hk2.mem_iff.1 h))
      have hS1 : (Forest.cons c k .nil).Shows (idxKids subs1) := by
        refine shows_congr _ ?_ hk1
        rintro x hx l ⟨s, q1, q2⟩
        obtain ⟨s', e', q3, q4⟩ := i1 x hx
        rw [q1] at q3
        cases q3
        exact ⟨_, q4, q2⟩
      obtain ⟨subs2, e2, l2, o2, i2, t2⟩ := ih subs1 hnd.2.1 (fun g' hg' => hfuel g' (by simp [hg']))
        (fun g' hg' => (ht g' (by simp [hg'])).congr (fun i hi => hog i (hdis i (List.mem_flatten.2 ⟨g', hg', hi⟩))))
      have hkeep : ∀ x ∈ g, subs2[x]? = subs1[x]? := fun x hx => o2 x (fun h => hdis x h hx)
      refine ⟨subs2, ?_, by rw [l2, l1], ?_, ?_, ?_⟩
      · unfold fillDepth centralsOf at *
        rw [List.filterMap_cons, List.head?_cons]
        simp only
        rw [fillDepthEach, fillDepthRec_eq_kids fuel 0 c subs hclt]
        have : fillDepthKids (fillDepthRec fuel 0) [(c : Int)] subs = .ok subs1 := e1
        rw [this]
        simp only [Outcome.bind_ok]
        exact e2
      · intro x hx
        rw [← hg, List.flatten_cons, List.mem_append, not_or] at hx
        rw [o2 x hx.2, hog x hx.1]
      · intro x hx
        rw [← hg, List.flatten_cons, List.mem_append] at hx
        rcases hx with hx | hx
        · obtain ⟨s, e, a1, a2⟩ := i1 x (hk2.mem_iff.2 hx)
          exact ⟨s, e, a1, by rw [hkeep x hx, a2]⟩
        · obtain ⟨s, e, a1, a2⟩ := i2 x hx
          exact ⟨s, e, by rw [← hog x (hdis x hx), a1], a2⟩
      · intro g' hg' c' hc'
        rcases List.mem_cons.1 hg' with rfl | hg'
        · simp only [List.head?_cons, Option.some.injEq] at hc'
          subst hc'
          refine ⟨k, shows_congr _ ?_ hS1, hg ▸ hk2, depths_congr _ _ ?_ d1⟩
          · rintro x hx l ⟨s, q1, q2⟩
            exact ⟨s, by rw [hkeep x (hk2.mem_iff.1 hx), q1], q2⟩
          · rintro x hx l ⟨s, q1, q2⟩
            exact ⟨s, by rw [hkeep x (hk2.mem_iff.1 hx), q1], q2⟩
        · exact t2 g' hg' c' hc'

end HBT
