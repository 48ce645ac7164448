import Mathlib.Data.Real.Basic
import Mathlib.Algebra.Order.Floor.Ring
import Mathlib.Tactic

/-!
# Time services (C125, C126)

`src/frydom/environment/time/FrTimeServices.cpp`, `FrTimeServices.h`, `FrTimeZone.cpp`, `FrTimeZone.h`. Times and durations are in milliseconds (integers) from the epoch; the library `date` is a
primitive: a time zone is its offset (in ms) as a function of the UTC time.
-/

open Classical

noncomputable section

namespace Frydom.Env.Clock

/-- `date::time_zone`: offset of the local clock at a UTC instant. -/
abbrev Zone := ℤ → ℤ

/-- A UTC instant whose local clock shows `l`. -/
def Zone.Shows (z : Zone) (u l : ℤ) : Prop := u + z u = l

/-- `date::make_zoned(zone, local time)`: the UTC instant; `none`: throws because the local time does not exist or is ambiguous. -/
def makeZoned (z : Zone) (l : ℤ) : Option ℤ := if h : ∃! u, z.Shows u l then some h.choose else none
/-- `get_local_time()` of a zoned time. -/
def localTime (z : Zone) (u : ℤ) : ℤ := u + z u
/-- The zone UTC. -/
def utc : Zone := fun _ => 0

/-- `Update(time)`: elapsed milliseconds, `int` seconds and milliseconds (FrTimeServices.cpp:57-63, FrTimeZone.cpp:107-112). `none`: conversion to `int` out of range (undefined behaviour). -/
def elapsed (time : ℝ) : Option ℤ :=
  let s := ⌊time⌋
  let ms := ⌊1000 * (time - ⌊time⌋)⌋
  if s < 2 ^ 31 ∧ -(2 ^ 31) ≤ s then some (s * 1000 + ms) else none

/-- `FrTimeServices` (FrTimeServices.h:31-36): cached time, starting time, starting day. -/
structure Services where
  cache : ℤ
  initTime : ℤ
  initDay : ℤ

/-- One day in milliseconds. -/
def day : ℤ := 86400000

namespace Services
/-- `SetStartingTime(hours, minutes, seconds)` (FrTimeServices.cpp:33-36). -/
def setHMS (s : Services) (h m sec : ℤ) : Services := { s with initTime := h * 3600000 + m * 60000 + sec * 1000 }
/-- `SetStartingTime(milliseconds)` (FrTimeServices.cpp:38-40). -/
def setMs (s : Services) (t : ℤ) : Services := { s with initTime := t }
/-- `SetStartingTime(zoned_time)` (FrTimeServices.cpp:42-47): `u` the UTC instant, `z` the zone. -/
def setZoned (s : Services) (z : Zone) (u : ℤ) : Services :=
  let lt := localTime z u
  let d := lt / day * day
  { s with initDay := d, initTime := lt - d }
/-- `SetStartingDay` (FrTimeServices.cpp:52-58). -/
def setDay (s : Services) (d : ℤ) : Services := { s with initDay := d }
/-- `Initialize` (FrTimeServices.cpp:77-79). -/
def init (s : Services) : Services := { s with cache := s.initTime }
/-- `Update(time)` (FrTimeServices.cpp:57-63). -/
def update (s : Services) (time : ℝ) : Option Services := (elapsed time).map fun e => { s with cache := s.initTime + e }
/-- `GetTime(zone)` (FrTimeServices.h:76-78); `none`: throws. -/
def getTime (s : Services) (z : Zone) : Option ℤ := (makeZoned z (s.initDay + s.cache)).map (localTime z)
/-- `GetUTCTime()` (FrTimeServices.h:91-94). -/
def getUTC (s : Services) : Option ℤ := s.getTime utc
/-- `GetTimeZoneOffset(zone)` (FrTimeServices.cpp:65-69), in minutes. -/
def offset (s : Services) (z : Zone) : Option ℝ := (makeZoned utc (s.initDay + s.cache)).map fun u => (z u : ℝ) / 60000
end Services

/-- `FrTimeZone` (FrTimeZone.h): zoned time (UTC instant), whether days are UTC or local, the two days, the starting time, the zone. -/
structure TimeZone where
  zoned : ℤ
  isUTC : Bool
  sysDays : ℤ
  localDays : ℤ
  initTime : ℤ
  zone : Zone

namespace TimeZone
/-- `SetSysOrLocal` (FrTimeZone.h). -/
def setMode (t : TimeZone) (u : Bool) : TimeZone := { t with isUTC := u }
/-- `SetTimeZone` (FrTimeZone.h). -/
def setZone (t : TimeZone) (z : Zone) : TimeZone := { t with zone := z }
/-- `SetDay` (FrTimeZone.cpp:75-84): `d` the day of the calendar. -/
def setDay (t : TimeZone) (d : ℤ) : TimeZone := if t.isUTC then { t with sysDays := d } else { t with localDays := d }
/-- `SetTime` (FrTimeZone.cpp:86-88). -/
def setTime (t : TimeZone) (h m s : ℤ) : TimeZone := { t with initTime := h * 3600000 + m * 60000 + s * 1000 }
/-- `SetZoneDayTime` (FrTimeZone.cpp:67-73). -/
def setAll (t : TimeZone) (z : Zone) (d h m s : ℤ) (u : Bool) : TimeZone := (((t.setMode u).setZone z).setDay d).setTime h m s
/-- The assignment of `m_zonedTime` in `Initialize` and `Update` (FrTimeZone.cpp:95-106, 113-122). -/
def place (t : TimeZone) (e : ℤ) : Option TimeZone :=
  if t.isUTC then some { t with zoned := t.sysDays + (t.initTime + e) }
  else (makeZoned t.zone (t.localDays + (t.initTime + e))).map fun u => { t with zoned := u }
/-- `Initialize` (FrTimeZone.cpp:95-106). -/
def init (t : TimeZone) : Option TimeZone := t.place 0
/-- `Update(time)` (FrTimeZone.cpp:104-123). -/
def update (t : TimeZone) (time : ℝ) : Option TimeZone := (elapsed time).bind t.place
/-- `GetUTCTime`, `GetLocalTime`, `GetTimeZoneOffset` (FrTimeZone.h, FrTimeZone.cpp:90-93). -/
def getUTC (t : TimeZone) : ℤ := t.zoned
def getLocal (t : TimeZone) : ℤ := localTime t.zone t.zoned
def getOffset (t : TimeZone) : ℝ := (t.zone t.zoned : ℝ) / 60000
end TimeZone

/-- The clock fields of `UTC_to_tm`, `local_to_tm` (FrTimeZone.cpp:20-55): day (ms), hours, minutes, seconds of a time. -/
def toTm (l : ℤ) : ℤ × ℤ × ℤ × ℤ :=
  let ld := l / day * day
  let tod := l - ld
  (ld, tod / 3600000, tod % 3600000 / 60000, tod % 60000 / 1000)
/-- `to_UTC_time`, `to_local_time` (FrTimeZone.cpp:57-65), in ms. -/
def ofTm (t : ℤ × ℤ × ℤ × ℤ) : ℤ := t.1 + t.2.1 * 3600000 + t.2.2.1 * 60000 + t.2.2.2 * 1000

/-! ## Lemmas -/

theorem makeZoned_some (z : Zone) (l u : ℤ) (h : makeZoned z l = some u) : localTime z u = l := by
  unfold makeZoned at h
  split at h
  · rename_i hu
    rw [Option.some.injEq] at h
    rw [← h]; exact hu.choose_spec.1
  · cases h

theorem makeZoned_utc (l : ℤ) : makeZoned utc l = some l := by
  have hex : ∃! u, utc.Shows u l := ⟨l, by simp [Zone.Shows, utc], fun u hu => by simpa [Zone.Shows, utc] using hu⟩
  unfold makeZoned
  rw [dif_pos hex, Option.some.injEq]
  have := hex.choose_spec.1
  simpa [Zone.Shows, utc] using this

theorem elapsed_eq (time : ℝ) (h0 : -(2 ^ 31) ≤ ⌊time⌋) (h1 : ⌊time⌋ < 2 ^ 31) : elapsed time = some ⌊1000 * time⌋ := by
  unfold elapsed
  simp only []
  rw [if_pos ⟨h1, h0⟩, Option.some.injEq]
  have : (1000 : ℝ) * time = 1000 * (time - ⌊time⌋) + ((⌊time⌋ * 1000 : ℤ) : ℝ) := by push_cast; ring
  rw [this, Int.floor_add_intCast]; ring

/-! ## C125 -/

/-- **C125, elapsed time.** After an update at a simulation time below 2³¹ seconds, the clock has advanced from the starting time by the simulation time rounded down to the millisecond: it is late by less than a millisecond, and never goes back when the
simulation time does not. At 2³¹ seconds (68 years) the conversion to `int` is undefined. -/
theorem C125_elapsed (s : Services) (time time' : ℝ) (h0 : 0 ≤ time) (hle : time ≤ time') (h1 : time' < 2 ^ 31) :
    ∃ r r', s.update time = some r ∧ s.update time' = some r' ∧
      (((r.cache - s.initTime : ℤ) : ℝ) ≤ 1000 * time ∧ 1000 * time < ((r.cache - s.initTime : ℤ) : ℝ) + 1) ∧ r.cache ≤ r'.cache ∧ r.initDay = s.initDay := by
  have hb : ∀ t : ℝ, 0 ≤ t → t < 2 ^ 31 → -(2 ^ 31) ≤ ⌊t⌋ ∧ ⌊t⌋ < 2 ^ 31 := by
    intro t ht ht'
    refine ⟨?_, ?_⟩
    · have : (0 : ℤ) ≤ ⌊t⌋ := Int.floor_nonneg.mpr ht
      omega
    · rw [Int.floor_lt]; push_cast; linarith
  obtain ⟨a, b⟩ := hb time h0 (lt_of_le_of_lt hle h1)
  obtain ⟨a', b'⟩ := hb time' (h0.trans hle) h1
  refine ⟨{ s with cache := s.initTime + ⌊1000 * time⌋ }, { s with cache := s.initTime + ⌊1000 * time'⌋ }, ?_, ?_, ⟨?_, ?_⟩, ?_, rfl⟩
  · unfold Services.update; rw [elapsed_eq time a b]; rfl
  · unfold Services.update; rw [elapsed_eq time' a' b']; rfl
  · simp only [add_sub_cancel_left]; exact Int.floor_le _
  · simp only [add_sub_cancel_left]; exact Int.lt_floor_add_one _
  · simp only []
    have : ⌊1000 * time⌋ ≤ ⌊1000 * time'⌋ := Int.floor_le_floor (by linarith)
    omega

theorem C125_overflow (s : Services) (time : ℝ) (h : 2 ^ 31 ≤ time) : s.update time = none := by
  unfold Services.update elapsed
  simp only []
  rw [if_neg]
  · rfl
  · rintro ⟨h1, _⟩
    rw [Int.floor_lt] at h1; push_cast at h1; linarith

/-- **C125, start.** After `Initialize`, the time read in UTC is the day and the time that were set (by hours, minutes, seconds or in milliseconds), or the local clock of the zoned time that was set. -/
theorem C125_start (s : Services) (d h m sec t : ℤ) (z : Zone) (u : ℤ) :
    ((s.setDay d).setHMS h m sec).init.getUTC = some (d + (h * 3600000 + m * 60000 + sec * 1000)) ∧
    ((s.setDay d).setMs t).init.getUTC = some (d + t) ∧
    (s.setZoned z u).init.getUTC = some (u + z u) := by
  have hu : ∀ s : Services, s.getUTC = some (s.initDay + s.cache) := by
    intro s; unfold Services.getUTC Services.getTime; rw [makeZoned_utc]; simp [localTime, utc]
  refine ⟨?_, ?_, ?_⟩
  · rw [hu]; rfl
  · rw [hu]; rfl
  · rw [hu]; simp [Services.setZoned, Services.init, localTime]

/-- **C125, start from a zoned time, then a time of the day.** `SetStartingTime(zoned)` also sets the day: it is a whole number of days, the local clock is less than one day after it, and a time of
the day set afterwards is counted from it. -/
theorem C125_start_day (s : Services) (z : Zone) (u h m sec : ℤ) :
    ∃ d, day ∣ d ∧ d ≤ u + z u ∧ u + z u < d + day ∧
      ((s.setZoned z u).setHMS h m sec).init.getUTC = some (d + (h * 3600000 + m * 60000 + sec * 1000)) := by
  have hu : ∀ s : Services, s.getUTC = some (s.initDay + s.cache) := by
    intro s; unfold Services.getUTC Services.getTime; rw [makeZoned_utc]; simp [localTime, utc]
  have hd : (0 : ℤ) < day := by decide
  refine ⟨(u + z u) / day * day, dvd_mul_left _ _, Int.ediv_mul_le _ hd.ne', ?_, ?_⟩
  · have := Int.lt_ediv_add_one_mul_self (u + z u) hd
    linarith
  · rw [hu]; rfl

/-- **C125 (defect), zones ignored.** The time in a time zone is never converted: in every zone it is the same clock, the local one that was set, or an exception is thrown (when that clock does not exist in the zone, or is ambiguous). In particular a
simulation started at a zoned time reports as its UTC time the local clock of that zone, wrong by the offset of the zone. -/
theorem C125_zones_ignored (s : Services) (z z' : Zone) (u : ℤ) :
    (s.getTime z = none ∨ s.getTime z = some (s.initDay + s.cache)) ∧
    (∀ a b, s.getTime z = some a → s.getTime z' = some b → a = b) ∧
    ((s.setZoned z u).init.getUTC = some u ↔ z u = 0) := by
  have key : ∀ z : Zone, s.getTime z = none ∨ s.getTime z = some (s.initDay + s.cache) := by
    intro z
    unfold Services.getTime
    cases h : makeZoned z (s.initDay + s.cache) with
    | none => left; rfl
    | some v => right; rw [Option.map_some, makeZoned_some z _ v h]
  refine ⟨key z, ?_, ?_⟩
  · intro a b ha hb
    rcases key z with h | h <;> rcases key z' with h' | h' <;> rw [h] at ha <;> rw [h'] at hb
    · cases ha
    · cases ha
    · cases hb
    · rw [← Option.some.inj ha, ← Option.some.inj hb]
  · rw [(C125_start s 0 0 0 0 0 z u).2.2, Option.some.injEq]; constructor <;> intro h <;> omega

/-- **C125 (defect), clock change.** If the clock of a zone is put forward (by `k > 0` at the UTC instant `c`, constant offsets before and after), the time in that zone throws for the whole hour that the clock skips, and (if put back) for the whole hour that it shows twice. -/
theorem C125_clock_change (z : Zone) (c o k : ℤ) (hk : 0 < k) (l : ℤ) (s : Services) (hs : s.initDay + s.cache = l) :
    ((∀ u, z u = if u < c then o else o + k) → c + o ≤ l → l < c + o + k → s.getTime z = none) ∧
    ((∀ u, z u = if u < c then o + k else o) → c + o ≤ l → l < c + o + k → s.getTime z = none) := by
  refine ⟨?_, ?_⟩
  · intro hz h1 h2
    have hno : ¬ ∃! u, z.Shows u l := by
      rintro ⟨u, hu, _⟩
      unfold Zone.Shows at hu
      rw [hz u] at hu
      by_cases hc : u < c
      · rw [if_pos hc] at hu; omega
      · rw [if_neg hc] at hu; omega
    unfold Services.getTime makeZoned
    rw [hs, dif_neg hno]; rfl
  · intro hz h1 h2
    have hno : ¬ ∃! u, z.Shows u l := by
      rintro ⟨u, _, huniq⟩
      have e1 := huniq (l - o - k) (by show l - o - k + z (l - o - k) = l; rw [hz, if_pos (by omega)]; omega)
      have e2 := huniq (l - o) (by show l - o + z (l - o) = l; rw [hz, if_neg (by omega)]; omega)
      omega
    unfold Services.getTime makeZoned
    rw [hs, dif_neg hno]; rfl

/-- **C125, time zone offset.** The offset reported for a zone is the number of minutes its clock is ahead of UTC at the current instant: 60000 times it, added to the UTC time reported,
is what the clock of the zone shows. -/
theorem C125_offset (s : Services) (z : Zone) :
    ∃ u o, s.getUTC = some u ∧ s.offset z = some o ∧ (localTime z u : ℝ) = u + 60000 * o := by
  refine ⟨s.initDay + s.cache, (z (s.initDay + s.cache) : ℝ) / 60000, ?_, ?_, ?_⟩
  · unfold Services.getUTC Services.getTime; rw [makeZoned_utc]; simp [localTime, utc]
  · unfold Services.offset; rw [makeZoned_utc]; rfl
  · unfold localTime; push_cast; ring

/-! ## C126 -/

/-- **C126, zoned clock.** Set with zone, day and time, then updated at a simulation time: in UTC mode the UTC time is the day and time set plus the elapsed time; in local mode the local time is (or an exception is thrown, the clock not existing or being
ambiguous). In both modes the local time is the UTC time plus the offset reported (in minutes). -/
theorem C126_zoned (t : TimeZone) (z : Zone) (d h m s : ℤ) (time : ℝ) (h0 : -(2 ^ 31) ≤ ⌊time⌋) (h1 : ⌊time⌋ < 2 ^ 31) :
    (∃ r, (t.setAll z d h m s true).update time = some r ∧ r.getUTC = d + (h * 3600000 + m * 60000 + s * 1000) + ⌊1000 * time⌋ ∧ r.zone = z) ∧
    ((t.setAll z d h m s false).update time = none ∨
      ∃ r, (t.setAll z d h m s false).update time = some r ∧ r.getLocal = d + (h * 3600000 + m * 60000 + s * 1000) + ⌊1000 * time⌋ ∧ r.zone = z) ∧
    (∀ r : TimeZone, (r.getLocal : ℝ) = r.getUTC + 60000 * r.getOffset) := by
  refine ⟨?_, ?_, ?_⟩
  · unfold TimeZone.update
    rw [elapsed_eq time h0 h1]
    refine ⟨_, rfl, ?_, rfl⟩
    simp only [TimeZone.getUTC, TimeZone.setAll, TimeZone.setTime, TimeZone.setDay, TimeZone.setZone, TimeZone.setMode, if_true]
    ring
  · unfold TimeZone.update
    rw [elapsed_eq time h0 h1]
    simp only [TimeZone.setAll, TimeZone.setTime, TimeZone.setDay, TimeZone.setZone, TimeZone.setMode, Option.bind_some, TimeZone.place, Bool.false_eq_true, if_false]
    cases hz : makeZoned z (d + (h * 3600000 + m * 60000 + s * 1000 + ⌊1000 * time⌋)) with
    | none => left; rfl
    | some u =>
      right
      refine ⟨_, rfl, ?_, rfl⟩
      show localTime z u = _
      rw [makeZoned_some z _ u hz]; ring
  · intro r
    simp only [TimeZone.getLocal, TimeZone.getUTC, TimeZone.getOffset, localTime]
    push_cast; ring

/-- **C126, calendar fields.** The fields of the broken-down time are in their ranges and give the time back, rounded down to the second. -/
theorem C126_fields (l : ℤ) :
    let t := toTm l
    (0 ≤ t.2.1 ∧ t.2.1 < 24) ∧ (0 ≤ t.2.2.1 ∧ t.2.2.1 < 60) ∧ (0 ≤ t.2.2.2 ∧ t.2.2.2 < 60) ∧ t.1 % day = 0 ∧ ofTm t = l / 1000 * 1000 := by
  simp only [toTm, ofTm, day]
  refine ⟨⟨?_, ?_⟩, ⟨?_, ?_⟩, ⟨?_, ?_⟩, ?_, ?_⟩ <;> omega

/-- **C126 (defect), order of the settings.** The day set before choosing UTC is not used: the UTC day stays what it was (1 January 1970 for a new object). -/
theorem C126_order (t : TimeZone) (hl : t.isUTC = false) (d : ℤ) :
    ∃ r, ((t.setDay d).setMode true).init = some r ∧ r.getUTC = t.sysDays + t.initTime := by
  refine ⟨_, rfl, ?_⟩
  simp [TimeZone.setDay, hl, TimeZone.setMode, TimeZone.getUTC]

/-- A case: UTC + 1 h, the clock shows 13 h at 12 h UTC. -/
example : makeZoned (fun _ => 3600000) (13 * 3600000) = some (12 * 3600000) := by
  have hex : ∃! u, Zone.Shows (fun _ => 3600000) u (13 * 3600000) := ⟨12 * 3600000, by simp [Zone.Shows], fun u hu => by simp [Zone.Shows] at hu; omega⟩
  unfold makeZoned
  rw [dif_pos hex, Option.some.injEq]
  have h : hex.choose + 3600000 = 13 * 3600000 := hex.choose_spec.1
  omega

end Frydom.Env.Clock
