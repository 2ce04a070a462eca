import Verif.Model.DateText

/-!
# Specification for times as text

A moment is a date, a time of day, and a time zone, as ISO 8601 writes them: `2024-02-29T23:59:60+05:30`.
-/

namespace Verif.DateText

open Verif Verif.Value

/-- A date and time of day with its zone. -/
structure Moment where
  year : Int
  month : Int
  day : Int
  hour : Int
  minute : Int
  second : Int
  west : Bool
  zoneHour : Int
  zoneMinute : Int
  deriving DecidableEq, Repr

/-- The moment a value means: years are counted from 1900 and months from 0 (rbus_value.h:86-97). -/
def moment (d : DateTime) : Moment :=
  ⟨d.year.toInt + 1900, d.mon.toInt + 1, d.mday.toInt, d.hour.toInt, d.min.toInt, d.sec.toInt, d.isWest,
    d.tzhour.toInt, d.tzmin.toInt⟩

/-- Fields within the calendar, from the year 1 to 9999; the zone within two digits, and UTC not called west. -/
def Moment.Valid (m : Moment) : Prop :=
  (1 ≤ m.year ∧ m.year ≤ 9999) ∧ (1 ≤ m.month ∧ m.month ≤ 12) ∧ (1 ≤ m.day ∧ m.day ≤ 31) ∧
  (0 ≤ m.hour ∧ m.hour ≤ 23) ∧ (0 ≤ m.minute ∧ m.minute ≤ 59) ∧ (0 ≤ m.second ∧ m.second ≤ 60) ∧
  (0 ≤ m.zoneHour ∧ m.zoneHour ≤ 99) ∧ (0 ≤ m.zoneMinute ∧ m.zoneMinute ≤ 99) ∧
  (m.west = true → m.zoneHour ≠ 0 ∨ m.zoneMinute ≠ 0)

/-- The digit of a number at a place. -/
def digitAt (place : Nat) (v : Int) : UInt8 := UInt8.ofNat (48 + v.toNat / 10 ^ place % 10)

/-- Two digits. -/
def two (v : Int) : Bytes := [digitAt 1 v, digitAt 0 v]

/-- Four digits. -/
def four (v : Int) : Bytes := [digitAt 3 v, digitAt 2 v, digitAt 1 v, digitAt 0 v]

/-- Date and time of day in the notation of ISO 8601, with `sep` between them. -/
def isoTime (sep : UInt8) (m : Moment) : Bytes :=
  four m.year ++ [45] ++ two m.month ++ [45] ++ two m.day ++ [sep] ++ two m.hour ++ [58] ++ two m.minute ++ [58] ++
    two m.second

/-- The zone in the notation of ISO 8601: hours and minutes. -/
def isoOffset (m : Moment) : Bytes :=
  [if m.west then 45 else 43] ++ two m.zoneHour ++ [58] ++ two m.zoneMinute

/-- The notations of a moment: with T or a blank, with the zone as an offset, or as Z or nothing if it is UTC. -/
def Writes (s : Bytes) (m : Moment) : Prop :=
  ∃ sep z, (sep = 84 ∨ sep = 32) ∧ s = isoTime sep m ++ z ∧
    (z = isoOffset m ∨ ((z = [90] ∨ z = []) ∧ m.zoneHour = 0 ∧ m.zoneMinute = 0))

end Verif.DateText
