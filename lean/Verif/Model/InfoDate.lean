import Verif.Model.Info
/- Model of the creation date: gopdf.go 2340-2344, 2390-2393. -/
namespace Verif.Info

/-- What `time.Time.Format` uses of a time: the civil date and clock in its location (to the second) and the offset of the
location from universal time in seconds, east positive (`time.Time.Zone`). -/
structure Time where
  year : Int
  month : Nat
  day : Nat
  hour : Nat
  minute : Nat
  second : Nat
  offset : Int
  deriving DecidableEq, Repr

/-- `appendInt` of package time: decimal, padded with zeros to a width. -/
def appendInt (n : Int) (width : Nat) : Bytes :=
  (if n < 0 then [45] else []) ++ padL width (dec n.natAbs)

/-- `infodate` (gopdf.go 2390-2393): `t.Format("20060102150405-07'00'")`.  Of the layout, `2006`, `01`, `02`, `15`, `04`, `05`
and `-07` (sign and hours of the zone, truncated to minutes and then to hours) are replaced; `'00'` is text. -/
def infodate (t : Time) : Bytes :=
  appendInt t.year 4 ++ (appendInt t.month 2 ++ (appendInt t.day 2 ++ (appendInt t.hour 2 ++ (appendInt t.minute 2 ++
    (appendInt t.second 2 ++ ((if t.offset.tdiv 60 < 0 then [45] else [43]) ++
      (appendInt ((t.offset.tdiv 60).natAbs / 60 : Nat) 2 ++ lit "'00'")))))))

/-- `writeInfo` (gopdf.go 2340-2342): a time equal to the zero time is left out.  `zero`: the instants are equal
(`time.Time.Equal`). -/
def dateEntry (zero : Bool) (t : Time) : Option Bytes := if zero then none else some (infodate t)

end Verif.Info
