import Verif.Base.Bytes
/-
Independent specification: dates (ISO 32000-1 §7.9.4), read as an instant: seconds since the start of the year 0 (proleptic
Gregorian calendar, universal time).
-/
namespace Verif.PdfDate

def leap (y : Nat) : Bool := y % 4 == 0 && (y % 100 != 0 || y % 400 == 0)

/-- Days of a month, 1 to 12. -/
def monthDays (y m : Nat) : Nat := match m with
  | 2 => if leap y then 29 else 28
  | 4 | 6 | 9 | 11 => 30
  | _ => 31

/-- Days from the start of the year 0 to a date. -/
def dayNumber (y m d : Nat) : Nat :=
  ((List.range y).map fun k => if leap k then 366 else 365).sum + ((List.range (m - 1)).map fun k => monthDays y (k + 1)).sum + (d - 1)

/-- Fields of a date and the offset from universal time in minutes. -/
structure Date where
  year : Nat
  month : Nat := 1
  day : Nat := 1
  hour : Nat := 0
  minute : Nat := 0
  second : Nat := 0
  offset : Int := 0
  deriving DecidableEq, Repr

def Date.valid (t : Date) : Bool :=
  1 ≤ t.month && t.month ≤ 12 && 1 ≤ t.day && t.day ≤ monthDays t.year t.month && t.hour < 24 && t.minute < 60 && t.second < 60

/-- The instant. -/
def Date.instant (t : Date) : Int :=
  86400 * dayNumber t.year t.month t.day + 3600 * t.hour + 60 * t.minute + t.second - 60 * t.offset

/-- Two digits. -/
def two : Bytes → Option (Nat × Bytes)
  | a :: b :: r => if isDigit a ∧ isDigit b then some (10 * (a.toNat - 48) + (b.toNat - 48), r) else none
  | _ => none

/-- The rest of a zone: `HH'mm'`, hours below 24, minutes below 60. -/
def zone (sign : Int) (bs : Bytes) : Option Int :=
  (two bs).bind fun h => if 24 ≤ h.1 then none else match h.2 with
    | [] => some (sign * (60 * h.1))
    | 39 :: r => if r = [] then some (sign * (60 * h.1)) else
      (two r).bind fun m => if 60 ≤ m.1 then none else
        if m.2 = [] ∨ m.2 = [39] then some (sign * (60 * h.1 + m.1)) else none
    | _ => none

/-- The time zone: `+`, `-` or `Z`. -/
def offset (t : Date) : Bytes → Option Date
  | [] => some t
  | 43 :: r => (zone 1 r).map fun z => { t with offset := z }
  | 45 :: r => (zone (-1) r).map fun z => { t with offset := z }
  | 90 :: _ => some t
  | _ => none

/-- An optional field of two digits; the zone may come at any place after it. -/
def field (set : Date → Nat → Date) (next : Date → Bytes → Option Date) (t : Date) (bs : Bytes) : Option Date :=
  match two bs with
  | some (n, r) => next (set t n) r
  | none => offset t bs

/-- `D:YYYYMMDDHHmmSSOHH'mm'`, everything after the year optional. -/
def parse (bs : Bytes) : Option Date :=
  (dropPrefix? (lit "D:") bs).bind fun bs => (two bs).bind fun c => (two c.2).bind fun y =>
    (field (fun t n => { t with month := n })
      (field (fun t n => { t with day := n })
        (field (fun t n => { t with hour := n })
          (field (fun t n => { t with minute := n })
            (field (fun t n => { t with second := n }) offset))))
      { year := 100 * c.1 + y.1 } y.2).bind fun t => if t.valid then some t else none

example : parse (lit "D:199812231952-08'00'") = some ⟨1998, 12, 23, 19, 52, 0, -480⟩ := by decide +kernel
example : parse (lit "D:20240229") = some { year := 2024, month := 2, day := 29 } := by decide +kernel
example : parse (lit "D:20230229") = none := by decide +kernel

end Verif.PdfDate
