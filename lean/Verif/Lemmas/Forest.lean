import Verif.Spec.Nest
import Mathlib.Data.List.Basic
import Mathlib.Data.List.Perm.Basic
import Mathlib.Tactic.SplitIfs
/-!
# Facts about forests
-/
namespace HBT.Spec.Forest
open HBT HBT.Spec
variable {α β : Type}

@[simp] theorem nodes_nil : (nil : Forest α).nodes = [] := rfl
@[simp] theorem nodes_cons (a : α) (k r : Forest α) : (cons a k r).nodes = a :: (k.nodes ++ r.nodes) := rfl
@[simp] theorem roots_nil : (nil : Forest α).roots = [] := rfl
@[simp] theorem roots_cons (a : α) (k r : Forest α) : (cons a k r).roots = a :: r.roots := rfl
@[simp] theorem nil_append (g : Forest α) : nil ++ g = g := rfl
@[simp] theorem cons_append (a : α) (k r g : Forest α) : cons a k r ++ g = cons a k (r ++ g) := rfl

@[simp] theorem append_nil : ∀ f : Forest α, f ++ nil = f
  | nil => rfl
  | cons a k r => by rw [cons_append, append_nil r]

theorem append_assoc : ∀ f g h : Forest α, (f ++ g) ++ h = f ++ (g ++ h)
  | nil, _, _ => rfl
  | cons a k r, g, h => by rw [cons_append, cons_append, cons_append, append_assoc r g h]

@[simp] theorem nodes_append : ∀ f g : Forest α, (f ++ g).nodes = f.nodes ++ g.nodes
  | nil, _ => rfl
  | cons a k r, g => by simp [nodes_append r g]

@[simp] theorem roots_append : ∀ f g : Forest α, (f ++ g).roots = f.roots ++ g.roots
  | nil, _ => rfl
  | cons a k r, g => by simp [roots_append r g]

theorem shows_append (kids : α → List α → Prop) : ∀ f g : Forest α,
    (f ++ g).Shows kids ↔ f.Shows kids ∧ g.Shows kids
  | nil, g => by simp [Shows]
  | cons a k r, g => by simp [Shows, shows_append kids r g, and_assoc]

theorem edges_append (R : α → α → Prop) : ∀ f g : Forest α,
    (f ++ g).Edges R ↔ f.Edges R ∧ g.Edges R
  | nil, g => by simp [Edges]
  | cons a k r, g => by simp [Edges, edges_append R r g, and_assoc]

theorem depths_append (p : α → Int → Prop) (d : Int) : ∀ f g : Forest α,
    (f ++ g).Depths p d ↔ f.Depths p d ∧ g.Depths p d
  | nil, g => by simp [Depths]
  | cons a k r, g => by simp [Depths, depths_append p d r g, and_assoc]

theorem roots_sublist : ∀ f : Forest α, f.roots.Sublist f.nodes
  | nil => List.Sublist.refl _
  | cons a k r => by
    rw [roots_cons, nodes_cons]
    exact ((roots_sublist r).trans (List.sublist_append_right _ _)).cons_cons a

theorem roots_subset (f : Forest α) {x : α} (h : x ∈ f.roots) : x ∈ f.nodes := (roots_sublist f).subset h

theorem height_le : ∀ f : Forest α, f.height ≤ f.nodes.length
  | nil => Nat.le_refl _
  | cons a k r => by
    have h1 := height_le k
    have h2 := height_le r
    simp only [height, nodes_cons, List.length_cons, List.length_append]
    omega

theorem shows_congr {kids kids' : α → List α → Prop} : ∀ f : Forest α,
    (∀ a ∈ f.nodes, ∀ l, kids a l → kids' a l) → f.Shows kids → f.Shows kids'
  | nil, _, _ => trivial
  | cons a k r, h, hs =>
    ⟨h a (by simp) _ hs.1, shows_congr k (fun x hx => h x (by simp [hx])) hs.2.1,
      shows_congr r (fun x hx => h x (by simp [hx])) hs.2.2⟩

theorem edges_imp {R R' : α → α → Prop} : ∀ f : Forest α,
    (∀ a ∈ f.nodes, ∀ c ∈ f.nodes, R a c → R' a c) → f.Edges R → f.Edges R'
  | nil, _, _ => trivial
  | cons a k r, h, hs =>
    ⟨fun c hc => h a (by simp) c (by simp [roots_subset k hc]) (hs.1 c hc),
      edges_imp k (fun x hx y hy => h x (by simp [hx]) y (by simp [hy])) hs.2.1,
      edges_imp r (fun x hx y hy => h x (by simp [hx]) y (by simp [hy])) hs.2.2⟩

@[simp] theorem nodes_map (σ : α → β) : ∀ f : Forest α, (f.map σ).nodes = f.nodes.map σ
  | nil => rfl
  | cons a k r => by simp [map, nodes_map σ k, nodes_map σ r]

@[simp] theorem roots_map (σ : α → β) : ∀ f : Forest α, (f.map σ).roots = f.roots.map σ
  | nil => rfl
  | cons a k r => by simp [map, roots_map σ r]

theorem shows_map {kids : α → List α → Prop} {kids' : β → List β → Prop} (σ : α → β) : ∀ f : Forest α,
    (∀ a ∈ f.nodes, ∀ l, (∀ x ∈ l, x ∈ f.nodes) → kids a l → kids' (σ a) (l.map σ)) → f.Shows kids →
    (f.map σ).Shows kids'
  | nil, _, _ => trivial
  | cons a k r, h, hs => by
    refine ⟨?_, shows_map σ k ?_ hs.2.1, shows_map σ r ?_ hs.2.2⟩
    · rw [roots_map]
      exact h a (by simp) _ (fun x hx => by simp [roots_subset k hx]) hs.1
    · exact fun x hx l hl => h x (by simp [hx]) l (fun y hy => by simp [hl y hy])
    · exact fun x hx l hl => h x (by simp [hx]) l (fun y hy => by simp [hl y hy])

/-! ## Cutting edges -/

/-- Cut each edge (parent, child) that `keep` does not keep; `p` is the parent of the roots. The kept
forest under `p` and the trees cut off. -/
def cut (keep : α → α → Bool) : α → Forest α → Forest α × Forest α
  | _, nil => (nil, nil)
  | p, cons a k r =>
    if keep p a then (cons a (cut keep a k).1 (cut keep p r).1, (cut keep a k).2 ++ (cut keep p r).2)
    else ((cut keep p r).1, cons a (cut keep a k).1 ((cut keep a k).2 ++ (cut keep p r).2))

/-- Cut inside each tree of a forest: the trees left of the original ones and the trees cut off. -/
def cutAll (keep : α → α → Bool) : Forest α → Forest α × Forest α
  | nil => (nil, nil)
  | cons a k r => (cons a (cut keep a k).1 (cutAll keep r).1, (cut keep a k).2 ++ (cutAll keep r).2)

theorem cut_nodes (keep : α → α → Bool) : ∀ (p : α) (f : Forest α),
    ((cut keep p f).1.nodes ++ (cut keep p f).2.nodes).Perm f.nodes
  | _, nil => List.Perm.refl _
  | p, cons a k r => by
    have h1 := cut_nodes keep a k
    have h2 := cut_nodes keep p r
    rw [cut]
    split
    · simp only [nodes_cons, nodes_append, List.cons_append]
      refine List.Perm.cons a ?_
      refine List.Perm.trans ?_ (h1.append h2)
      simp only [List.append_assoc]
      refine List.Perm.append_left _ ?_
      simp only [← List.append_assoc]
      exact List.Perm.append_right _ List.perm_append_comm
    · simp only [nodes_cons, nodes_append]
      refine List.perm_middle.trans (List.Perm.cons a ?_)
      refine List.Perm.trans ?_ (h1.append h2)
      rw [← List.append_assoc, ← List.append_assoc, ← List.append_assoc]
      refine List.perm_append_comm.trans ?_
      simp only [List.append_assoc]
      refine List.Perm.trans (List.perm_append_comm) ?_
      simp only [List.append_assoc]
      refine List.Perm.trans List.perm_append_comm ?_
      simp only [List.append_assoc]
      refine List.Perm.append_left _ ?_
      exact List.Perm.append_left _ List.perm_append_comm

theorem cutAll_nodes (keep : α → α → Bool) : ∀ (f : Forest α),
    ((cutAll keep f).1.nodes ++ (cutAll keep f).2.nodes).Perm f.nodes
  | nil => List.Perm.refl _
  | cons a k r => by
    have h1 := cut_nodes keep a k
    have h2 := cutAll_nodes keep r
    rw [cutAll]
    simp only [nodes_cons, nodes_append, List.cons_append]
    refine List.Perm.cons a ?_
    refine List.Perm.trans ?_ (h1.append h2)
    simp only [List.append_assoc]
    refine List.Perm.append_left _ ?_
    simp only [← List.append_assoc]
    exact List.Perm.append_right _ List.perm_append_comm

theorem cut_roots (keep : α → α → Bool) : ∀ (p : α) (f : Forest α),
    (cut keep p f).1.roots = f.roots.filter (keep p)
  | _, nil => rfl
  | p, cons a k r => by
    rw [cut]
    split
    · rename_i h; simp [cut_roots keep p r, h]
    · rename_i h; simp [cut_roots keep p r, h]

theorem cutAll_roots (keep : α → α → Bool) : ∀ (f : Forest α), (cutAll keep f).1.roots = f.roots
  | nil => rfl
  | cons a k r => by rw [cutAll]; simp [cutAll_roots keep r]

theorem cut_edges (keep : α → α → Bool) : ∀ (p : α) (f : Forest α),
    (cut keep p f).1.Edges (fun a c => keep a c = true) ∧ (cut keep p f).2.Edges (fun a c => keep a c = true)
  | _, nil => ⟨trivial, trivial⟩
  | p, cons a k r => by
    obtain ⟨h1, h2⟩ := cut_edges keep a k
    obtain ⟨h3, h4⟩ := cut_edges keep p r
    have h5 : ∀ c ∈ (cut keep a k).1.roots, keep a c = true := by
      intro c hc
      rw [cut_roots] at hc
      exact (List.mem_filter.1 hc).2
    rw [cut]
    split
    · exact ⟨⟨h5, h1, h3⟩, (edges_append _ _ _).2 ⟨h2, h4⟩⟩
    · exact ⟨h3, h5, h1, (edges_append _ _ _).2 ⟨h2, h4⟩⟩

theorem cutAll_edges (keep : α → α → Bool) : ∀ (f : Forest α),
    (cutAll keep f).1.Edges (fun a c => keep a c = true) ∧ (cutAll keep f).2.Edges (fun a c => keep a c = true)
  | nil => ⟨trivial, trivial⟩
  | cons a k r => by
    obtain ⟨h1, h2⟩ := cut_edges keep a k
    obtain ⟨h3, h4⟩ := cutAll_edges keep r
    have h5 : ∀ c ∈ (cut keep a k).1.roots, keep a c = true := by
      intro c hc
      rw [cut_roots] at hc
      exact (List.mem_filter.1 hc).2
    rw [cutAll]
    exact ⟨⟨h5, h1, h3⟩, (edges_append _ _ _).2 ⟨h2, h4⟩⟩

/-- `c` is a child of `a` somewhere in the forest. -/
def IsChild (a c : α) : Forest α → Prop
  | nil => False
  | cons b k r => (b = a ∧ c ∈ k.roots) ∨ IsChild a c k ∨ IsChild a c r

/-- A root of a cut-off tree was the child of a parent that does not keep it. -/
theorem mem_cut_detached (keep : α → α → Bool) (x : α) : ∀ (p : α) (f : Forest α),
    x ∈ (cut keep p f).2.roots ↔ (x ∈ f.roots ∧ keep p x = false) ∨ ∃ a, IsChild a x f ∧ keep a x = false
  | _, nil => by simp [cut, IsChild]
  | p, cons b k r => by
    have h1 := mem_cut_detached keep x b k
    have h2 := mem_cut_detached keep x p r
    have key : (∃ a, IsChild a x (cons b k r) ∧ keep a x = false) ↔
        ((x ∈ k.roots ∧ keep b x = false) ∨ ∃ a, IsChild a x k ∧ keep a x = false) ∨
          ∃ a, IsChild a x r ∧ keep a x = false := by
      constructor
      · rintro ⟨a, (⟨rfl, h⟩ | h | h), hk⟩
        · exact Or.inl (Or.inl ⟨h, hk⟩)
        · exact Or.inl (Or.inr ⟨a, h, hk⟩)
        · exact Or.inr ⟨a, h, hk⟩
      · rintro ((⟨h, hk⟩ | ⟨a, h, hk⟩) | ⟨a, h, hk⟩)
        · exact ⟨b, Or.inl ⟨rfl, h⟩, hk⟩
        · exact ⟨a, Or.inr (Or.inl h), hk⟩
        · exact ⟨a, Or.inr (Or.inr h), hk⟩
    rw [key, cut]
    split
    · rename_i hb
      simp only [roots_append, roots_cons, List.mem_append, List.mem_cons, h1, h2]
      constructor
      · rintro ((h | h) | (h | h))
        · exact Or.inr (Or.inl (Or.inl h))
        · exact Or.inr (Or.inl (Or.inr h))
        · exact Or.inl ⟨Or.inr h.1, h.2⟩
        · exact Or.inr (Or.inr h)
      · rintro (⟨(rfl | h), hk⟩ | ((h | h) | h))
        · rw [hb] at hk; cases hk
        · exact Or.inr (Or.inl ⟨h, hk⟩)
        · exact Or.inl (Or.inl h)
        · exact Or.inl (Or.inr h)
        · exact Or.inr (Or.inr h)
    · rename_i hb
      simp only [roots_append, roots_cons, List.mem_append, List.mem_cons, h1, h2]
      constructor
      · rintro (rfl | (h | h) | (h | h))
        · exact Or.inl ⟨Or.inl rfl, by simpa using hb⟩
        · exact Or.inr (Or.inl (Or.inl h))
        · exact Or.inr (Or.inl (Or.inr h))
        · exact Or.inl ⟨Or.inr h.1, h.2⟩
        · exact Or.inr (Or.inr h)
      · rintro (⟨(rfl | h), hk⟩ | ((h | h) | h))
        · exact Or.inl rfl
        · exact Or.inr (Or.inr (Or.inl ⟨h, hk⟩))
        · exact Or.inr (Or.inl (Or.inl h))
        · exact Or.inr (Or.inl (Or.inr h))
        · exact Or.inr (Or.inr (Or.inr h))

theorem mem_cutAll_detached (keep : α → α → Bool) (x : α) : ∀ (f : Forest α),
    x ∈ (cutAll keep f).2.roots ↔ ∃ a, IsChild a x f ∧ keep a x = false
  | nil => by simp [cutAll, IsChild]
  | cons b k r => by
    have h1 := mem_cut_detached keep x b k
    have h2 := mem_cutAll_detached keep x r
    rw [cutAll]
    simp only [roots_append, List.mem_append, h1, h2]
    constructor
    · rintro ((⟨h, hk⟩ | ⟨a, h, hk⟩) | ⟨a, h, hk⟩)
      · exact ⟨b, Or.inl ⟨rfl, h⟩, hk⟩
      · exact ⟨a, Or.inr (Or.inl h), hk⟩
      · exact ⟨a, Or.inr (Or.inr h), hk⟩
    · rintro ⟨a, (⟨rfl, h⟩ | h | h), hk⟩
      · exact Or.inl (Or.inl ⟨h, hk⟩)
      · exact Or.inl (Or.inr ⟨a, h, hk⟩)
      · exact Or.inr ⟨a, h, hk⟩

theorem isChild_mem {a c : α} : ∀ {f : Forest α}, IsChild a c f → a ∈ f.nodes ∧ c ∈ f.nodes
  | nil, h => h.elim
  | cons b k r, h => by
    rcases h with ⟨rfl, h⟩ | h | h
    · exact ⟨by simp, by simp [roots_subset k h]⟩
    · have := isChild_mem h; exact ⟨by simp [this.1], by simp [this.2]⟩
    · have := isChild_mem h; exact ⟨by simp [this.1], by simp [this.2]⟩

/-- Each node is a root or a child. -/
theorem root_or_child {x : α} : ∀ {f : Forest α}, x ∈ f.nodes → x ∈ f.roots ∨ ∃ a, IsChild a x f
  | nil, h => by simp at h
  | cons b k r, h => by
    rw [nodes_cons, List.mem_cons, List.mem_append] at h
    rcases h with rfl | h | h
    · exact Or.inl (by simp)
    · rcases root_or_child h with h | ⟨a, h⟩
      · exact Or.inr ⟨b, Or.inl ⟨rfl, h⟩⟩
      · exact Or.inr ⟨a, Or.inr (Or.inl h)⟩
    · rcases root_or_child h with h | ⟨a, h⟩
      · exact Or.inl (by simp [h])
      · exact Or.inr ⟨a, Or.inr (Or.inr h)⟩

/-- With distinct labels no node is both a root and a child. -/
theorem root_not_child {x : α} : ∀ {f : Forest α}, f.nodes.Nodup → x ∈ f.roots → ∀ a, ¬ IsChild a x f
  | nil, _, h, _ => by simp at h
  | cons b k r, hn, h, a => by
    rw [nodes_cons, List.nodup_cons, List.nodup_append, List.mem_append] at hn
    obtain ⟨h1, h2, h3, h4⟩ := hn
    rintro (⟨rfl, hc⟩ | hc | hc)
    · rcases List.mem_cons.1 h with rfl | hr
      · exact h1 (Or.inl (roots_subset k hc))
      · exact h4 _ (roots_subset k hc) _ (roots_subset r hr) rfl
    · rcases List.mem_cons.1 h with rfl | hr
      · exact h1 (Or.inl (isChild_mem hc).2)
      · exact h4 _ (isChild_mem hc).2 _ (roots_subset r hr) rfl
    · rcases List.mem_cons.1 h with rfl | hr
      · exact h1 (Or.inr (isChild_mem hc).2)
      · exact root_not_child h3 hr a hc

/-- In a forest with distinct labels a node has one parent. -/
theorem isChild_unique {a b c : α} : ∀ {f : Forest α}, f.nodes.Nodup → IsChild a c f → IsChild b c f → a = b
  | nil, _, h, _ => h.elim
  | cons d k r, hn, h, h' => by
    have hn' := hn
    rw [nodes_cons, List.nodup_cons, List.nodup_append, List.mem_append] at hn
    obtain ⟨h1, h2, h3, h4⟩ := hn
    rcases h with ⟨rfl, h⟩ | h | h <;> rcases h' with ⟨rfl, h'⟩ | h' | h'
    · rfl
    · exact absurd h' (root_not_child h2 h b)
    · exact absurd rfl (h4 _ (roots_subset k h) _ (isChild_mem h').2)
    · exact absurd h (root_not_child h2 h' a)
    · exact isChild_unique h2 h h'
    · exact absurd rfl (h4 _ (isChild_mem h).2 _ (isChild_mem h').2)
    · exact absurd rfl (h4 _ (roots_subset k h') _ (isChild_mem h).2)
    · exact absurd rfl (h4 _ (isChild_mem h').2 _ (isChild_mem h).2)
    · exact isChild_unique h3 h h'

theorem edges_iff (R : α → α → Prop) : ∀ f : Forest α, f.Edges R ↔ ∀ a c, IsChild a c f → R a c
  | nil => by simp [Edges, IsChild]
  | cons b k r => by
    rw [Edges, edges_iff R k, edges_iff R r]
    constructor
    · rintro ⟨h1, h2, h3⟩ a c (⟨rfl, h⟩ | h | h)
      · exact h1 c h
      · exact h2 a c h
      · exact h3 a c h
    · intro h
      exact ⟨fun c hc => h b c (Or.inl ⟨rfl, hc⟩), fun a c hc => h a c (Or.inr (Or.inl hc)),
        fun a c hc => h a c (Or.inr (Or.inr hc))⟩

/-- The children recorded are the children in the forest. -/
theorem isChild_kids {kids : α → List α → Prop} {a c : α} : ∀ {f : Forest α}, f.Shows kids → IsChild a c f →
    ∃ l, kids a l ∧ c ∈ l
  | nil, _, h => h.elim
  | cons b k r, hs, h => by
    rcases h with ⟨rfl, h⟩ | h | h
    · exact ⟨_, hs.1, h⟩
    · exact isChild_kids hs.2.1 h
    · exact isChild_kids hs.2.2 h

theorem kids_isChild {kids : α → List α → Prop} (hu : ∀ a l l', kids a l → kids a l' → l = l') {a c : α} {l : List α}
    (hl : kids a l) (hc : c ∈ l) : ∀ {f : Forest α}, f.Shows kids → a ∈ f.nodes → IsChild a c f
  | nil, _, h => by simp at h
  | cons b k r, hs, h => by
    rw [nodes_cons, List.mem_cons, List.mem_append] at h
    rcases h with rfl | h | h
    · rw [hu _ _ _ hl hs.1] at hc
      exact Or.inl ⟨rfl, hc⟩
    · exact Or.inr (Or.inl (kids_isChild hu hl hc hs.2.1 h))
    · exact Or.inr (Or.inr (kids_isChild hu hl hc hs.2.2 h))

theorem isChild_append {a c : α} : ∀ f g : Forest α, IsChild a c (f ++ g) ↔ IsChild a c f ∨ IsChild a c g
  | nil, g => by simp [IsChild]
  | cons b k r, g => by simp [IsChild, isChild_append r g, or_assoc]

/-- A child in the cut forest was a child before. -/
theorem cut_isChild (keep : α → α → Bool) {a c : α} : ∀ (p : α) (f : Forest α),
    (IsChild a c (cut keep p f).1 ∨ IsChild a c (cut keep p f).2) → IsChild a c f ∧ keep a c = true
  | _, nil, h => by simp [cut, IsChild] at h
  | p, cons b k r, h => by
    have h1 := cut_isChild keep (a := a) (c := c) b k
    have h2 := cut_isChild keep (a := a) (c := c) p r
    have h5 : ∀ c ∈ (cut keep b k).1.roots, c ∈ k.roots ∧ keep b c = true := by
      intro c hc
      rw [cut_roots] at hc
      exact List.mem_filter.1 hc
    rw [cut] at h
    split at h
    · simp only [isChild_append, IsChild] at h ⊢
      rcases h with (⟨rfl, h⟩ | h | h) | (h | h)
      · exact ⟨Or.inl ⟨rfl, (h5 c h).1⟩, (h5 c h).2⟩
      · exact ⟨Or.inr (Or.inl (h1 (Or.inl h)).1), (h1 (Or.inl h)).2⟩
      · exact ⟨Or.inr (Or.inr (h2 (Or.inl h)).1), (h2 (Or.inl h)).2⟩
      · exact ⟨Or.inr (Or.inl (h1 (Or.inr h)).1), (h1 (Or.inr h)).2⟩
      · exact ⟨Or.inr (Or.inr (h2 (Or.inr h)).1), (h2 (Or.inr h)).2⟩
    · simp only [isChild_append, IsChild] at h ⊢
      rcases h with h | (⟨rfl, h⟩ | h | (h | h))
      · exact ⟨Or.inr (Or.inr (h2 (Or.inl h)).1), (h2 (Or.inl h)).2⟩
      · exact ⟨Or.inl ⟨rfl, (h5 c h).1⟩, (h5 c h).2⟩
      · exact ⟨Or.inr (Or.inl (h1 (Or.inl h)).1), (h1 (Or.inl h)).2⟩
      · exact ⟨Or.inr (Or.inl (h1 (Or.inr h)).1), (h1 (Or.inr h)).2⟩
      · exact ⟨Or.inr (Or.inr (h2 (Or.inr h)).1), (h2 (Or.inr h)).2⟩

/-! ## Choosing trees -/

/-- The trees whose root satisfies `p`. -/
def filterRoots (p : α → Bool) : Forest α → Forest α
  | nil => nil
  | cons a k r => if p a then cons a k (filterRoots p r) else filterRoots p r

theorem filterRoots_roots (p : α → Bool) : ∀ f : Forest α, (filterRoots p f).roots = f.roots.filter p
  | nil => rfl
  | cons a k r => by
    rw [filterRoots]
    split
    · rename_i h; simp [filterRoots_roots p r, h]
    · rename_i h; simp [filterRoots_roots p r, h]

theorem filterRoots_sublist (p : α → Bool) : ∀ f : Forest α, (filterRoots p f).nodes.Sublist f.nodes
  | nil => List.Sublist.refl _
  | cons a k r => by
    rw [filterRoots]
    split
    · exact ((List.Sublist.refl k.nodes).append (filterRoots_sublist p r)).cons_cons a
    · exact ((filterRoots_sublist p r).trans (List.sublist_append_right _ _)).cons a

theorem filterRoots_shows (p : α → Bool) {kids : α → List α → Prop} : ∀ f : Forest α, f.Shows kids →
    (filterRoots p f).Shows kids
  | nil, _ => trivial
  | cons a k r, h => by
    rw [filterRoots]
    split
    · exact ⟨h.1, h.2.1, filterRoots_shows p r h.2.2⟩
    · exact filterRoots_shows p r h.2.2

theorem filterRoots_edges (p : α → Bool) {R : α → α → Prop} : ∀ f : Forest α, f.Edges R →
    (filterRoots p f).Edges R
  | nil, _ => trivial
  | cons a k r, h => by
    rw [filterRoots]
    split
    · exact ⟨h.1, h.2.1, filterRoots_edges p r h.2.2⟩
    · exact filterRoots_edges p r h.2.2

theorem filterRoots_perm (p : α → Bool) : ∀ f : Forest α,
    ((filterRoots p f).nodes ++ (filterRoots (fun a => !p a) f).nodes).Perm f.nodes
  | nil => List.Perm.refl _
  | cons a k r => by
    have ih := filterRoots_perm p r
    rw [filterRoots, filterRoots]
    cases h : p a with
    | true =>
      simp only [Bool.not_true, if_true, if_false, nodes_cons, List.cons_append, Bool.false_eq_true,
        List.append_assoc]
      exact List.Perm.cons a (List.Perm.append_left _ ih)
    | false =>
      simp only [Bool.not_false, if_true, if_false, nodes_cons, Bool.false_eq_true]
      refine List.perm_middle.trans (List.Perm.cons a ?_)
      rw [← List.append_assoc]
      refine (List.Perm.append_right _ List.perm_append_comm).trans ?_
      rw [List.append_assoc]
      exact List.Perm.append_left _ ih

/-- If parents and children agree on `h`, all nodes of a tree agree with the root. -/
theorem filterRoots_nodes {γ : Type} [DecidableEq γ] (h : α → γ) : ∀ f : Forest α,
    f.Edges (fun a c => h c = h a) → ∀ v, ((filterRoots (fun a => decide (h a = v)) f).nodes)
      = f.nodes.filter (fun a => decide (h a = v)) := by
  have hall : ∀ (k : Forest α) (v : γ), k.Edges (fun a c => h c = h a) → (∀ c ∈ k.roots, h c = v) →
      ∀ x ∈ k.nodes, h x = v := by
    intro k
    induction k with
    | nil => intro v _ _ x hx; simp at hx
    | cons a k r ihk ihr =>
      intro v he hr x hx
      rw [nodes_cons, List.mem_cons, List.mem_append] at hx
      rcases hx with rfl | hx | hx
      · exact hr _ (by simp)
      · exact ihk v he.2.1 (fun c hc => (he.1 c hc).trans (hr a (by simp))) x hx
      · exact ihr v he.2.2 (fun c hc => hr c (by simp [hc])) x hx
  intro f
  induction f with
  | nil => intro _ v; rfl
  | cons a k r ihk ihr =>
    intro he v
    have hk := hall k (h a) he.2.1 he.1
    rw [filterRoots, nodes_cons, List.filter_cons, List.filter_append]
    by_cases hv : h a = v
    · rw [if_pos (by simpa using hv), if_pos (by simpa using hv), nodes_cons, ihr he.2.2 v]
      congr 2
      symm
      rw [List.filter_eq_self]
      intro x hx
      simp [hk x hx, hv]
    · rw [if_neg (by simpa using hv), if_neg (by simpa using hv), ihr he.2.2 v]
      have : k.nodes.filter (fun a => decide (h a = v)) = [] := by
        rw [List.filter_eq_nil_iff]
        intro x hx
        simp [hk x hx, hv]
      rw [this, List.nil_append]

theorem edges_all {γ : Type} (h : α → γ) : ∀ (k : Forest α) (v : γ), k.Edges (fun a c => h c = h a) →
    (∀ c ∈ k.roots, h c = v) → ∀ x ∈ k.nodes, h x = v := by
  intro k
  induction k with
  | nil => intro v _ _ x hx; simp at hx
  | cons a k r ihk ihr =>
    intro v he hr x hx
    rw [nodes_cons, List.mem_cons, List.mem_append] at hx
    rcases hx with rfl | hx | hx
    · exact hr _ (by simp)
    · exact ihk v he.2.1 (fun c hc => (he.1 c hc).trans (hr a (by simp))) x hx
    · exact ihr v he.2.2 (fun c hc => hr c (by simp [hc])) x hx

/-- The trees of a forest can be put in any order. -/
theorem exists_reorder : ∀ {l l' : List α}, l.Perm l' → ∀ f : Forest α, f.roots = l →
    ∃ g : Forest α, g.roots = l' ∧ g.nodes.Perm f.nodes ∧
      (∀ kids : α → List α → Prop, f.Shows kids → g.Shows kids) ∧
      (∀ R : α → α → Prop, f.Edges R → g.Edges R) := by
  intro l l' h
  induction h with
  | nil =>
    intro f hf
    exact ⟨f, hf, List.Perm.refl _, fun _ h => h, fun _ h => h⟩
  | cons x _ ih =>
    intro f hf
    cases f with
    | nil => simp at hf
    | cons a k r =>
      obtain ⟨rfl, hr⟩ := List.cons.inj hf
      obtain ⟨g, h1, h2, h3, h4⟩ := ih r hr
      exact ⟨cons a k g, by rw [roots_cons, h1], List.Perm.cons _ (List.Perm.append_left _ h2),
        fun kids hk => ⟨hk.1, hk.2.1, h3 kids hk.2.2⟩, fun R hk => ⟨hk.1, hk.2.1, h4 R hk.2.2⟩⟩
  | swap x y l =>
    intro f hf
    cases f with
    | nil => simp at hf
    | cons a k r =>
      cases r with
      | nil => simp at hf
      | cons b k' r' =>
        simp only [roots_cons, List.cons.injEq] at hf
        obtain ⟨rfl, rfl, hr⟩ := hf
        refine ⟨cons b k' (cons a k r'), by simp [hr], ?_,
          fun kids hk => ⟨hk.2.2.1, hk.2.2.2.1, hk.1, hk.2.1, hk.2.2.2.2⟩,
          fun R hk => ⟨hk.2.2.1, hk.2.2.2.1, hk.1, hk.2.1, hk.2.2.2.2⟩⟩
        simp only [nodes_cons]
        have e1 : b :: (k'.nodes ++ a :: (k.nodes ++ r'.nodes)) = (b :: k'.nodes) ++ ((a :: k.nodes) ++ r'.nodes) := by simp
        have e2 : a :: (k.nodes ++ b :: (k'.nodes ++ r'.nodes)) = (a :: k.nodes) ++ ((b :: k'.nodes) ++ r'.nodes) := by simp
        rw [e1, e2, ← List.append_assoc, ← List.append_assoc]
        exact List.Perm.append_right _ List.perm_append_comm
  | trans _ _ ih1 ih2 =>
    intro f hf
    obtain ⟨g, h1, h2, h3, h4⟩ := ih1 f hf
    obtain ⟨g', h1', h2', h3', h4'⟩ := ih2 g h1
    exact ⟨g', h1', h2'.trans h2, fun k h => h3' k (h3 k h), fun R h => h4' R (h4 R h)⟩

/-- After the cut each node has those of its former children that are kept. -/
theorem cut_shows (keep : α → α → Bool) {kids : α → List α → Prop} : ∀ (p : α) (f : Forest α), f.Shows kids →
    (cut keep p f).1.Shows (fun a l => ∃ l', kids a l' ∧ l = l'.filter (keep a)) ∧
    (cut keep p f).2.Shows (fun a l => ∃ l', kids a l' ∧ l = l'.filter (keep a))
  | _, nil, _ => ⟨trivial, trivial⟩
  | p, cons a k r, h => by
    obtain ⟨h1, h2⟩ := cut_shows keep a k h.2.1
    obtain ⟨h3, h4⟩ := cut_shows keep p r h.2.2
    have h5 : ∃ l', kids a l' ∧ (cut keep a k).1.roots = l'.filter (keep a) := ⟨_, h.1, cut_roots keep a k⟩
    rw [cut]
    split
    · exact ⟨⟨h5, h1, h3⟩, (shows_append _ _ _).2 ⟨h2, h4⟩⟩
    · exact ⟨h3, h5, h1, (shows_append _ _ _).2 ⟨h2, h4⟩⟩

theorem cutAll_shows (keep : α → α → Bool) {kids : α → List α → Prop} : ∀ (f : Forest α), f.Shows kids →
    (cutAll keep f).1.Shows (fun a l => ∃ l', kids a l' ∧ l = l'.filter (keep a)) ∧
    (cutAll keep f).2.Shows (fun a l => ∃ l', kids a l' ∧ l = l'.filter (keep a))
  | nil, _ => ⟨trivial, trivial⟩
  | cons a k r, h => by
    obtain ⟨h1, h2⟩ := cut_shows keep a k h.2.1
    obtain ⟨h3, h4⟩ := cutAll_shows keep r h.2.2
    have h5 : ∃ l', kids a l' ∧ (cut keep a k).1.roots = l'.filter (keep a) := ⟨_, h.1, cut_roots keep a k⟩
    rw [cutAll]
    exact ⟨⟨h5, h1, h3⟩, (shows_append _ _ _).2 ⟨h2, h4⟩⟩

/-! ## Single nodes and collections of forests -/

/-- Trees that consist of their roots. -/
def leaves : List α → Forest α
  | [] => nil
  | a :: l => cons a nil (leaves l)

@[simp] theorem leaves_nodes : ∀ l : List α, (leaves l).nodes = l
  | [] => rfl
  | a :: l => by rw [leaves, nodes_cons, leaves_nodes l]; rfl

@[simp] theorem leaves_roots : ∀ l : List α, (leaves l).roots = l
  | [] => rfl
  | a :: l => by rw [leaves, roots_cons, leaves_roots l]

theorem leaves_shows {kids : α → List α → Prop} : ∀ l : List α, (∀ a ∈ l, kids a []) → (leaves l).Shows kids
  | [], _ => trivial
  | a :: l, h => ⟨h a (by simp), trivial, leaves_shows l (fun b hb => h b (by simp [hb]))⟩

/-- All trees of a list of forests. -/
def join : List (Forest α) → Forest α
  | [] => nil
  | f :: fs => f ++ join fs

@[simp] theorem join_nodes : ∀ fs : List (Forest α), (join fs).nodes = (fs.map nodes).flatten
  | [] => rfl
  | f :: fs => by rw [join, nodes_append, join_nodes fs]; rfl

@[simp] theorem join_roots : ∀ fs : List (Forest α), (join fs).roots = (fs.map roots).flatten
  | [] => rfl
  | f :: fs => by rw [join, roots_append, join_roots fs]; rfl

theorem join_shows {kids : α → List α → Prop} : ∀ fs : List (Forest α), (∀ f ∈ fs, f.Shows kids) → (join fs).Shows kids
  | [], _ => trivial
  | f :: fs, h => (shows_append _ _ _).2 ⟨h f (by simp), join_shows fs (fun g hg => h g (by simp [hg]))⟩

/-- No node is its own child. -/
theorem not_self_child {x : α} : ∀ {f : Forest α}, f.nodes.Nodup → ¬ IsChild x x f
  | nil, _ => fun h => h
  | cons b k r, hn => by
    rw [nodes_cons, List.nodup_cons, List.nodup_append, List.mem_append] at hn
    obtain ⟨h1, h2, h3, h4⟩ := hn
    rintro (⟨rfl, hc⟩ | hc | hc)
    · exact h1 (Or.inl (roots_subset k hc))
    · exact not_self_child h2 hc
    · exact not_self_child h3 hc

theorem depths_map {depth : α → Int → Prop} {depth' : β → Int → Prop} (σ : α → β) : ∀ (f : Forest α) (d : Int),
    (∀ a ∈ f.nodes, ∀ e, depth a e → depth' (σ a) e) → f.Depths depth d → (f.map σ).Depths depth' d
  | nil, _, _, _ => trivial
  | cons a k r, d, h, hs =>
    ⟨h a (by simp) _ hs.1, depths_map σ k (d + 1) (fun x hx => h x (by simp [hx])) hs.2.1,
      depths_map σ r d (fun x hx => h x (by simp [hx])) hs.2.2⟩

theorem depths_congr {depth depth' : α → Int → Prop} : ∀ (f : Forest α) (d : Int),
    (∀ a ∈ f.nodes, ∀ e, depth a e → depth' a e) → f.Depths depth d → f.Depths depth' d
  | nil, _, _, _ => trivial
  | cons a k r, d, h, hs =>
    ⟨h a (by simp) _ hs.1, depths_congr k (d + 1) (fun x hx => h x (by simp [hx])) hs.2.1,
      depths_congr r d (fun x hx => h x (by simp [hx])) hs.2.2⟩

theorem filterRoots_isChild (p : α → Bool) {a c : α} : ∀ {f : Forest α}, IsChild a c (filterRoots p f) → IsChild a c f
  | nil, h => h
  | cons b k r, h => by
    rw [filterRoots] at h
    split at h
    · rcases h with h | h | h
      · exact Or.inl h
      · exact Or.inr (Or.inl h)
      · exact Or.inr (Or.inr (filterRoots_isChild p h))
    · exact Or.inr (Or.inr (filterRoots_isChild p h))

end HBT.Spec.Forest
