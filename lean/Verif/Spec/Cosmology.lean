import Mathlib.Algebra.Order.Field.Basic
/-!
# Specification: the expansion of the universe, and what a catalogue says about it
-/
namespace HBT.Spec
variable {K : Type}

/-- What the header of a snapshot says: scale factor, density parameters of matter and of the cosmological constant today. -/
structure Epoch (K : Type) where
  scale : K
  omegaM : K
  omegaLambda : K

/-- The right-hand side of the Friedmann equation, in units of the squared Hubble rate of today. -/
def Epoch.expansion [Field K] (e : Epoch K) : K :=
  e.omegaM / e.scale ^ 3 + (1 - e.omegaM - e.omegaLambda) / e.scale ^ 2 + e.omegaLambda

/-- A universe that expands at `e`: the scale factor is positive and so is the right-hand side of the Friedmann equation. -/
def Epoch.Expanding [Field K] [LT K] (e : Epoch K) : Prop := 0 < e.scale ∧ 0 < e.expansion

/-- `rate` is the Hubble rate at `e` if that of today is `today`. -/
def IsHubbleRate [Field K] [LE K] (today : K) (e : Epoch K) (rate : K) : Prop := 0 ≤ rate ∧ rate ^ 2 = today ^ 2 * e.expansion

/-- The critical density for a Hubble rate. -/
def criticalDensity [Field K] (pi g rate : K) : K := 3 * rate ^ 2 / (8 * pi * g)

/-- The mean density of matter at `e`: matter is not created, its density today is a part of the critical density of today. -/
def matterDensity [Field K] (pi g today : K) (e : Epoch K) : K := e.omegaM * criticalDensity pi g today / e.scale ^ 3

/-- The mean density in a sphere, from the mass in it and its comoving radius. -/
def sphereDensity [Field K] (pi : K) (e : Epoch K) (mass radius : K) : K := mass / (4 / 3 * pi * (e.scale * radius) ^ 3)

/-- The group `Cosmology` of a catalogue file. -/
structure CosmoGroup (K : Type) where
  omegaM0 : K
  omegaLambda0 : K
  hubbleParam : K
  scaleFactor : K
  deriving DecidableEq

end HBT.Spec
