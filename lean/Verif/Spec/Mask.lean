import Verif.Spec.Types
/-!
# Specification: exclusive sources
-/
namespace HBT.Spec
variable {K D : Type}

/-- The ids of the source particles of a subhalo. -/
def sourceIds (s : Sub K D) : List Int := s.particles.map Particle.id

/-- Not an orphan. -/
def Resolved (s : Sub K D) : Prop := 1 < s.nbound

/-- Subhalo `a` of one process contains subhalo `c` (indices): `c` is in the nest of `a`, or `a` is the
central of a host and `c` another member of that host at the top of its hierarchy (rank 0), or
through further subhaloes in between. `groups` are the members of the hosts, central first. -/
inductive Contains (subs : List (Sub K D)) (groups : List (List Nat)) : Nat → Nat → Prop
  | nested (a c : Nat) (s : Sub K D) (hs : subs[a]? = some s) (hc : (c : Int) ∈ s.nested) : Contains subs groups a c
  | top (a c : Nat) (g : List Nat) (s : Sub K D) (hg : g ∈ groups) (ha : g.head? = some a) (hc : c ∈ g)
      (hne : c ≠ a) (hs : subs[c]? = some s) (hr : s.rank = 0) : Contains subs groups a c
  | trans (a b c : Nat) (h1 : Contains subs groups a b) (h2 : Contains subs groups b c) : Contains subs groups a c

/-- C27 for the members `g` of one host, before and after masking. -/
structure MaskedHost (contains : Nat → Nat → Prop) (g : List Nat) (before after : List (Sub K D)) : Prop where
  /-- Particles are only removed, from resolved members only, and nothing else changes. -/
  frame : ∀ i ∈ g, ∀ s, before[i]? = some s → ∃ ps, after[i]? = some (s.withParticles ps) ∧
    ps.Sublist s.particles ∧ (¬ Resolved s → ps = s.particles)
  /-- No particle is twice in the source of a resolved member. -/
  once : ∀ i ∈ g, ∀ s, after[i]? = some s → Resolved s → (sourceIds s).Nodup
  /-- No particle is in the sources of two resolved members. -/
  exclusive : ∀ i ∈ g, ∀ j ∈ g, i ≠ j → ∀ s t, after[i]? = some s → after[j]? = some t → Resolved s → Resolved t →
    ∀ x ∈ sourceIds s, x ∉ sourceIds t
  /-- The contained subhalo has priority. -/
  priority : ∀ i ∈ g, ∀ j ∈ g, contains i j → ∀ t s, before[j]? = some t → after[i]? = some s → Resolved t → Resolved s →
    ∀ x ∈ sourceIds t, x ∉ sourceIds s
  /-- A source particle of a resolved member stays in the source of some resolved member. -/
  conserved : ∀ i ∈ g, ∀ s, before[i]? = some s → Resolved s → ∀ x ∈ sourceIds s,
    ∃ j ∈ g, ∃ t, after[j]? = some t ∧ Resolved t ∧ x ∈ sourceIds t

end HBT.Spec
