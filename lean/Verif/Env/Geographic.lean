import Verif.Geom.Model
import Mathlib.Analysis.SpecialFunctions.Trigonometric.Basic

/-!
# Geographic services and compass directions (C124)

`src/frydom/environment/geographicServices/FrGeographicServices.cpp`, `src/frydom/core/math/FrVector.cpp`.
GeographicLib is a parameter: `LocalCartesian::Forward` and `Reverse` (East, North, Up), the magnetic model, and the declination computed from the field.
-/

open Classical

noncomputable section

namespace Frydom.Env.Geo
open Frydom.Geom

/-- `FrGeographicCoord` (latitude, longitude, height). -/
@[ext] structure Coord where
  lat : ℝ
  lon : ℝ
  h : ℝ

/-- GeographicLib: local cartesian conversions about an origin (components East, North, Up), magnetic field (year and place to East, North, Up components) and declination of a field. -/
structure Lib where
  forward : Coord → Coord → V3
  reverse : Coord → V3 → Coord
  magnetic : ℝ → Coord → V3
  declination : ℝ → ℝ → ℝ → ℝ

/-- What GeographicLib documents: the two conversions are inverse of each other, and the origin is at the origin. -/
structure Lib.Good (L : Lib) : Prop where
  there : ∀ o c, L.reverse o (L.forward o c) = c
  back : ∀ o v, L.forward o (L.reverse o v) = v
  origin : ∀ o, L.forward o o = 0

/-- `GeoToCart(lat, lon, h, x, y, z, fc)` (FrGeographicServices.cpp:71-76), also behind the other overloads (80-94). -/
def geoToCart (L : Lib) (o c : Coord) (fc : FC) : V3 :=
  let w := L.forward o c
  match fc with
  | .NED => ⟨w.y, w.x, -w.z⟩
  | .NWU => ⟨w.y, -w.x, w.z⟩
/-- `CartToGeo` (FrGeographicServices.cpp:94-100), also behind the other overloads (105-115). -/
def cartToGeo (L : Lib) (o : Coord) (p : V3) (fc : FC) : Coord :=
  match fc with
  | .NED => L.reverse o ⟨p.y, p.x, -p.z⟩
  | .NWU => L.reverse o ⟨-p.y, p.x, p.z⟩
/-- `GetMagneticComponentsFromGeo` (FrGeographicServices.cpp:144-162). -/
def magneticFromGeo (L : Lib) (c : Coord) (year : ℝ) (fc : FC) : V3 :=
  let b := L.magnetic year c
  conv fc ⟨b.y, -b.x, b.z⟩
/-- `GetMagneticComponentsFromCart` (FrGeographicServices.cpp:164-168). -/
def magneticFromCart (L : Lib) (o : Coord) (p : V3) (year : ℝ) (fc : FC) : V3 := magneticFromGeo L (cartToGeo L o p fc) year fc
/-- `GetDeclinationFromGeo` (FrGeographicServices.cpp:131-144). -/
def declinationFromGeo (L : Lib) (c : Coord) (year : ℝ) : ℝ :=
  let m := magneticFromGeo L c year .NWU
  L.declination (-m.y) m.x m.z
/-- `GetDeclinationFromCart` (FrGeographicServices.cpp:118-128). -/
def declinationFromCart (L : Lib) (o : Coord) (p : V3) (year : ℝ) (fc : FC) : ℝ := declinationFromGeo L (cartToGeo L o p fc) year

/-! ## Compass directions -/

/-- The eight compass directions in the order of the compass, `NORTH(fc)` ... `NORTH_WEST(fc)` (FrVector.cpp:17-64), `s` being `MU_SQRT2_2`. -/
def compass (s : ℝ) (fc : FC) : List V3 :=
  [⟨1, 0, 0⟩, ⟨s, -s, 0⟩, ⟨0, -1, 0⟩, ⟨-s, -s, 0⟩, ⟨-1, 0, 0⟩, ⟨-s, s, 0⟩, ⟨0, 1, 0⟩, ⟨s, s, 0⟩].map (conv fc)

/-! ## C124 -/

/-- **C124, round trip.** For every origin and convention, converting to cartesian coordinates and back gives the geographic coordinates, and the reverse; the origin is at the origin of the world. -/
theorem C124_round_trip (L : Lib) (hL : L.Good) (o c : Coord) (p : V3) (fc : FC) :
    cartToGeo L o (geoToCart L o c fc) fc = c ∧ geoToCart L o (cartToGeo L o p fc) fc = p ∧ geoToCart L o o fc = 0 := by
  refine ⟨?_, ?_, ?_⟩
  · cases fc <;> simp [cartToGeo, geoToCart, hL.there]
  · cases fc <;> simp [cartToGeo, geoToCart, hL.back]
  · cases fc
    · simp [geoToCart, hL.origin]; rfl
    · simp [geoToCart, hL.origin]; rfl

/-- **C124, axes.** The first axis is north in both conventions, and a point described in NED is the same place as the point described in NWU: the position of a place in NED is the NED form of its position in NWU (so that no two conventions
disagree on latitude, longitude or height). -/
theorem C124_axes (L : Lib) (o c : Coord) (p : V3) :
    geoToCart L o c .NED = conv .NED (geoToCart L o c .NWU) ∧ cartToGeo L o (conv .NED p) .NED = cartToGeo L o p .NWU ∧
    (geoToCart L o c .NWU).x = (L.forward o c).y ∧ (geoToCart L o c .NWU).z = (L.forward o c).z ∧ (geoToCart L o c .NED).y = (L.forward o c).x := by
  refine ⟨?_, ?_, rfl, rfl, rfl⟩
  · simp [geoToCart, conv, swap]
  · simp [cartToGeo, conv, swap]

/-- **C124, magnetic field.** The field at a place is the same physical vector in both conventions, whether the place is given by geographic or cartesian coordinates; the declination is that of the field of the model at the place, and does
not depend on the convention in which the place is given. -/
theorem C124_magnetic (L : Lib) (o c : Coord) (p : V3) (year : ℝ) :
    magneticFromGeo L c year .NED = conv .NED (magneticFromGeo L c year .NWU) ∧
    magneticFromCart L o (conv .NED p) year .NED = conv .NED (magneticFromCart L o p year .NWU) ∧
    declinationFromGeo L c year = L.declination (L.magnetic year c).x (L.magnetic year c).y (L.magnetic year c).z ∧
    declinationFromCart L o (conv .NED p) year .NED = declinationFromCart L o p year .NWU := by
  have h := (C124_axes L o c p).2.1
  refine ⟨rfl, ?_, ?_, ?_⟩
  · unfold magneticFromCart; rw [h]; rfl
  · simp [declinationFromGeo, magneticFromGeo, conv]
  · unfold declinationFromCart; rw [h]

/-- **C124, compass.** In both conventions the eight directions are unit vectors, in order: the `k`-th one points `k` eighths of a turn clockwise (seen from above) from north, so that opposite directions are opposite. -/
theorem C124_compass (k : Fin 8) :
    (compass (Real.sqrt 2 / 2) .NED)[k.1]? = some ⟨Real.cos (k.1 * (Real.pi / 4)), Real.sin (k.1 * (Real.pi / 4)), 0⟩ ∧
    (compass (Real.sqrt 2 / 2) .NWU)[k.1]? = some ⟨Real.cos (k.1 * (Real.pi / 4)), -Real.sin (k.1 * (Real.pi / 4)), 0⟩ := by
  have hc := Real.cos_pi_div_four
  have hs := Real.sin_pi_div_four
  have e2 : (2:ℝ) * (Real.pi / 4) = Real.pi / 2 := by ring
  have e3 : (3:ℝ) * (Real.pi / 4) = Real.pi - Real.pi / 4 := by ring
  have e4 : (4:ℝ) * (Real.pi / 4) = Real.pi := by ring
  have e5 : (5:ℝ) * (Real.pi / 4) = Real.pi / 4 + Real.pi := by ring
  have e6 : (6:ℝ) * (Real.pi / 4) = Real.pi / 2 + Real.pi := by ring
  have e7 : (7:ℝ) * (Real.pi / 4) = -(Real.pi / 4) + 2 * Real.pi := by ring
  fin_cases k <;> simp [compass, conv, swap, hc, hs, e2, e3, e4, e5, e6, e7, Real.cos_pi_sub, Real.sin_pi_sub, Real.cos_add_pi, Real.sin_add_pi, Real.cos_add_two_pi, Real.sin_add_two_pi]

/-- A case: a flat earth is a good library. -/
example : Lib.Good ⟨fun o c => ⟨c.lon - o.lon, c.lat - o.lat, c.h - o.h⟩, fun o v => ⟨v.y + o.lat, v.x + o.lon, v.z + o.h⟩, fun _ _ => ⟨0, 1, 0⟩, fun _ _ _ => 0⟩ := by
  constructor
  · intro o c; simp
  · intro o v; simp
  · intro o; simp; rfl

end Frydom.Env.Geo
