import Verif.Ext.ChronoDate

/-!
# External: `chrono` 0.4.35, comparison of date-times

Trusted transcription (the crate is not in this sandbox).  `DateTime<Tz>` compares the stored UTC date and time:
`impl PartialOrd for DateTime<Tz>` is `self.datetime.partial_cmp(&other.datetime)`, and `NaiveDateTime` and
`NaiveTime` derive their orders: date first, then the second of the day, then the fraction.
-/

namespace Verif.Chrono

open Verif

/-- `NaiveDate::succ_opt`, without the limit of the year. -/
def NaiveDate.succ (x : NaiveDate) : NaiveDate :=
  if x.day < daysInMonth x.year x.month then ⟨x.year, x.month, x.day + 1⟩
  else if x.month < 12 then ⟨x.year, x.month + 1, 1⟩
  else ⟨x.year + 1, 1, 1⟩

/-- `NaiveDate::pred_opt`, without the limit of the year. -/
def NaiveDate.pred (x : NaiveDate) : NaiveDate :=
  if 1 < x.day then ⟨x.year, x.month, x.day - 1⟩
  else if 1 < x.month then ⟨x.year, x.month - 1, daysInMonth x.year (x.month - 1)⟩
  else ⟨x.year - 1, 12, 31⟩

/-- `Ord` of `NaiveDate`: year, then day of the year. -/
def NaiveDate.cmp (x y : NaiveDate) : Ordering :=
  (compare x.year y.year).then ((compare x.month y.month).then (compare x.day y.day))

/-- Second of the day. -/
def NaiveTime.secs (t : NaiveTime) : Nat := t.hour * 3600 + t.minute * 60 + t.second

/-- The stored UTC view: date, second of the day, nanoseconds (`NaiveDateTime::checked_sub_offset`). -/
def CDateTime.utc (x : CDateTime) : NaiveDate × Int × Nat :=
  let s : Int := (x.time.secs : Int) - x.offset
  if s < 0 then (x.date.pred, s + 86400, x.time.nano)
  else if 86400 ≤ s then (x.date.succ, s - 86400, x.time.nano)
  else (x.date, s, x.time.nano)

/-- `partial_cmp` of `DateTime<FixedOffset>`; never `None`. -/
def CDateTime.cmp (x y : CDateTime) : Ordering :=
  (x.utc.1.cmp y.utc.1).then ((compare x.utc.2.1 y.utc.2.1).then (compare x.utc.2.2 y.utc.2.2))

end Verif.Chrono
