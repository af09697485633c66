import Verif.Model.Visit
/-!
# Model of `MaskSubhalos`

src/subhalo_tracking.cpp:793-841. `groups[h]` is `MemberTable.SubGroups[h]`, `heads[h]` is
`MemberTable.SubGroupsOfHeads[h]`, both as lists of local indices.
-/
namespace HBT.Model
variable {K D : Type}

/-- The compaction loop of `Mask`, src/subhalo_tracking.cpp:809-819: `excl` is `ExclusionList` (in
order of insertion, latest first). Returns the extended exclusion list and the particles kept. -/
def maskParticles (excl : List Int) : List (Particle D) → List Int × List (Particle D)
  | [] => (excl, [])
  | p :: ps =>
    if p.id ∈ excl then maskParticles excl ps
    else
      let r := maskParticles (p.id :: excl) ps
      (r.1, p :: r.2)

/-- src/subhalo_tracking.cpp:807-820: what `Mask` does to the subhalo itself after its nested subhaloes. -/
def maskOne (id : Nat) (st : List Int × List (Sub K D)) : Outcome (List Int × List (Sub K D)) := do
  let s ← Outcome.get st.2 id
  if s.nbound ≤ 1 then .ok st
  else do
    let r := maskParticles st.1 s.particles
    let subs ← Outcome.set st.2 id (s.withParticles r.2)
    .ok (r.1, subs)

/-- `Mask(subid, Subhalos)`, src/subhalo_tracking.cpp:801-821. -/
def mask (fuel id : Nat) (st : List Int × List (Sub K D)) : Outcome (List Int × List (Sub K D)) :=
  visit (fun id st => do let s ← Outcome.get st.2 id; .ok s.nested) (fun _ _ => .ok ())
    (fun _ _ st => .ok st) (fun _ => maskOne) fuel id st

/-- `nest.insert(nest.end(), heads.begin()+1, heads.end())`, line 836 (also
src/subhalo_unbind.cpp:486 and src/subhalo_tracking.cpp:858): the other heads of the host are
appended to the nest of the central `c`. With an empty list of heads `begin()+1` is undefined. -/
def glue (c : Nat) (heads : List Nat) (subs : List (Sub K D)) : Outcome (List (Sub K D)) :=
  match heads with
  | [] => .ub
  | _ :: others => do
    let central ← Outcome.get subs c
    Outcome.set subs c (central.withNested (central.nested ++ others.map (fun h : Nat => (h : Int))))

/-- `nest.resize(old_membercount)`, line 839 (also src/subhalo_unbind.cpp:488 and
src/subhalo_tracking.cpp:870). The nest is never shorter than before, so this only cuts. -/
def unglue (c n : Nat) (subs : List (Sub K D)) : Outcome (List (Sub K D)) := do
  let central ← Outcome.get subs c
  Outcome.set subs c (central.withNested (central.nested.take n))

/-- The iteration of `MaskSubhalos` for one halo, src/subhalo_tracking.cpp:829-839. -/
def maskHost (fuel : Nat) (groups heads : List (List Nat)) (h : Nat) (subs : List (Sub K D)) :
    Outcome (List (Sub K D)) := do
  let g ← Outcome.get groups h
  match g with
  | [] => .ok subs
  | c :: _ => do
    let central ← Outcome.get subs c
    let hs ← Outcome.get heads h
    let subs ← glue c hs subs
    let r ← mask fuel c ([], subs)
    unglue c central.nested.length r.2

/-- `MaskSubhalos`, src/subhalo_tracking.cpp:824-841, on one process; `order` is the order in which the iterations take
effect (they touch the subhaloes of different hosts). -/
def maskSubhalos (fuel : Nat) (order : List Nat) (groups heads : List (List Nat)) (subs : List (Sub K D)) :
    Outcome (List (Sub K D)) :=
  runAll (maskHost fuel groups heads) order subs

end HBT.Model
