import Verif.Time.Calendar
import Verif.Base.Base64
import Verif.Base.Bytes
import Verif.Base.Num
/-!
# `datetime` values and the two stored time formats

`datetime.datetime` objects, the arithmetic pykeepass uses on them, and `_encode_time` /
`_decode_time` (pykeepass.py:994-1030).
-/
namespace Verif

/-- A `datetime.datetime`: fields and the UTC offset in microseconds (`none`: naive).
Simplification: a `tzinfo` is represented by the offset it reports for this value. -/
structure DateTime where
  date : Date
  hour : Nat
  minute : Nat
  second : Nat
  micro : Nat
  tz : Option Int
  deriving DecidableEq, Repr

/-- Microseconds of a day. -/
def dayMicros : Nat := 86400000000

/-- The field ranges checked by the `datetime` constructor (year at most 9999, offsets of less
than a day). -/
def DateTime.Ok (v : DateTime) : Prop :=
  v.date.Ok ∧ v.date.year ≤ 9999 ∧ v.hour < 24 ∧ v.minute < 60 ∧ v.second < 60 ∧
    v.micro < 1000000 ∧ ∀ o, v.tz = some o → -(dayMicros : Int) < o ∧ o < dayMicros

instance (o : Int) : Decidable (-(dayMicros : Int) < o ∧ o < dayMicros) := inferInstance

/-- Microseconds shown by the wall clock since 0001-01-01T00:00. -/
def DateTime.wall (v : DateTime) : Nat :=
  (ymd2ord v.date - 1) * dayMicros + ((v.hour * 60 + v.minute) * 60 + v.second) * 1000000 + v.micro

/-- Microseconds since 0001-01-01T00:00 UTC of an aware value: what comparison and subtraction of
aware values use. -/
def DateTime.instant (v : DateTime) : Option Int := v.tz.map fun o => (v.wall : Int) - o

/-- Microseconds from 0001-01-01 to the end of 9999-12-31. -/
def maxMicros : Nat := 3652059 * dayMicros

/-- `datetime(1, 1, 1, tzinfo=utc) + timedelta(microseconds=n)` for `n < maxMicros`. -/
def DateTime.ofMicros (n : Nat) : DateTime :=
  { date := ord2ymd (n / dayMicros + 1)
    hour := n % dayMicros / 3600000000
    minute := n % dayMicros / 60000000 % 60
    second := n % dayMicros / 1000000 % 60
    micro := n % 1000000
    tz := some 0 }

/-- Division rounded to nearest, ties to even. -/
def divHalfEven (a b : Nat) : Nat :=
  if 2 * (a % b) < b then a / b
  else if b < 2 * (a % b) then a / b + 1
  else if a / b % 2 = 0 then a / b else a / b + 1

/-- Number of fraction bits of the double nearest to `n / 10^6` (53 significant bits; `n < 2^72`).
Below one the exact exponent is irrelevant for `int()`, and 72 is used. -/
def fracBits (n : Nat) : Nat :=
  if n / 1000000 = 0 then 72 else 52 - Nat.log2 (n / 1000000)

/-- `int(timedelta.total_seconds())` for a non-negative timedelta of `n` microseconds:
`total_seconds` is the double nearest to `n / 10^6` (CPython divides the two integers with a
correctly rounded result), `int` truncates it. -/
def truncSeconds (n : Nat) : Nat :=
  divHalfEven (n * 2 ^ fracBits n) 1000000 / 2 ^ fracBits n

/-- `int(timedelta.total_seconds())` (truncation towards zero). -/
def intSeconds (n : Int) : Int :=
  if 0 ≤ n then (truncSeconds n.toNat : Nat) else - (truncSeconds (-n).toNat : Nat)

/-- `n` in `k` decimal digits. -/
def padNat : Nat → Nat → Str
  | 0, _ => []
  | k + 1, n => padNat k (n / 10) ++ [digitChar (n % 10)]

/-- CPython `format_utcoffset`. -/
def isoOffset (o : Int) : Str :=
  let a := o.natAbs
  (if o < 0 then ['-'] else ['+']) ++ padNat 2 (a / 3600000000) ++ [':'] ++
    padNat 2 (a / 60000000 % 60) ++
    (if a % 60000000 = 0 then [] else
      [':'] ++ padNat 2 (a / 1000000 % 60) ++
      (if a % 1000000 = 0 then [] else ['.'] ++ padNat 6 (a % 1000000)))

/-- `datetime.isoformat()`. -/
def isoformat (v : DateTime) : Str :=
  padNat 4 v.date.year ++ ['-'] ++ padNat 2 v.date.month ++ ['-'] ++ padNat 2 v.date.day ++ ['T'] ++
    padNat 2 v.hour ++ [':'] ++ padNat 2 v.minute ++ [':'] ++ padNat 2 v.second ++
    (if v.micro = 0 then [] else ['.'] ++ padNat 6 v.micro) ++
    (match v.tz with
     | none => []
     | some o => isoOffset o)

/-- `k` decimal digits from the front of a string. -/
def takeDigits : Nat → Nat → Str → Option (Nat × Str)
  | 0, acc, s => some (acc, s)
  | _ + 1, _, [] => none
  | k + 1, acc, c :: s => if isDigit c then takeDigits k (acc * 10 + digitVal c) s else none

/-- `.fff` or `.ffffff` up to the end, or nothing. -/
def parseFrac : Str → Option Nat
  | [] => some 0
  | '.' :: s =>
    if s.length = 6 then (takeDigits 6 0 s).map (·.1)
    else if s.length = 3 then (takeDigits 3 0 s).map fun p => p.1 * 1000
    else none
  | _ => none

/-- `[:SS[.fff[fff]]]` up to the end. -/
def parseSec : Str → Option (Nat × Nat)
  | [] => some (0, 0)
  | ':' :: s =>
    match takeDigits 2 0 s with
    | none => none
    | some (sec, s) => (parseFrac s).map fun f => (sec, f)
  | _ => none

/-- `[:MM[:SS[.fff[fff]]]]` up to the end. -/
def parseMin : Str → Option (Nat × Nat × Nat)
  | [] => some (0, 0, 0)
  | ':' :: s =>
    match takeDigits 2 0 s with
    | none => none
    | some (m, s) => (parseSec s).map fun r => (m, r)
  | _ => none

/-- `HH[:MM[:SS[.fff[fff]]]]`. -/
def parseHms (s : Str) : Option (Nat × Nat × Nat × Nat) :=
  match takeDigits 2 0 s with
  | none => none
  | some (h, s) => (parseMin s).map fun r => (h, r)

/-- The time after the separator: time of day, then an optional offset, of which only the validity
matters here (pykeepass replaces the time zone). -/
def parseTime (s : Str) : Option (Nat × Nat × Nat × Nat) :=
  let t := s.takeWhile fun c => c != '+' && c != '-'
  match s.dropWhile fun c => c != '+' && c != '-' with
  | [] => parseHms t
  | _ :: z =>
    match parseHms z with
    | none => none
    | some (zh, zm, zs, zf) =>
      if ((zh * 60 + zm) * 60 + zs) * 1000000 + zf < dayMicros then parseHms t else none

/-- `YYYY-MM-DD`. -/
def parseDate (s : Str) : Option (Date × Str) :=
  match takeDigits 4 0 s with
  | some (y, '-' :: s) =>
    match takeDigits 2 0 s with
    | some (m, '-' :: s) =>
      match takeDigits 2 0 s with
      | some (d, s) => some (⟨y, m, d⟩, s)
      | _ => none
    | _ => none
  | _ => none

/-- `datetime.fromisoformat(s).replace(tzinfo=timezone.utc)`.
The grammar of Python 3.7-3.10: `YYYY-MM-DD[*HH[:MM[:SS[.fff[fff]]]][+HH:MM[:SS[.ffffff]]]]`;
Python 3.11 accepts further ISO 8601 spellings, which are an error here. -/
def fromIso (s : Str) : Except PyErr DateTime :=
  match parseDate s with
  | none => .error .value
  | some (d, rest) =>
    let tm := match rest with
      | [] => some (0, 0, 0, 0)
      | _ :: t => parseTime t
    match tm with
    | none => .error .value
    | some (h, mi, se, f) =>
      if d.Ok ∧ d.year ≤ 9999 ∧ h < 24 ∧ mi < 60 ∧ se < 60 then
        .ok { date := d, hour := h, minute := mi, second := se, micro := f, tz := some 0 }
      else .error .value

/-- `text.replace('Z', '+00:00')`. -/
def replaceZ (s : Str) : Str := s.flatMap fun c => if c = 'Z' then "+00:00".toList else [c]

/-- `self.version >= (4, 0)`: tuple comparison. pykeepass.py:997,1018 -/
def versionGe4 (v : Nat × Nat) : Bool := decide (v.1 > 4) || (v.1 == 4 && decide (v.2 ≥ 0))

/-- `PyKeePass._encode_time`. pykeepass.py:994-1013 -/
def encodeTime (version : Nat × Nat) (v : DateTime) : Except PyErr Str :=
  if versionGe4 version then
    match v.instant with
    | none => .error .type          -- naive minus aware
    | some n =>
      let s := intSeconds n
      if s < 0 ∨ 256 ^ 8 ≤ s then .error .struct
      else .ok (b64encode (leBytes 8 s.toNat))
  else .ok (isoformat v)

/-- The ISO branch of `_decode_time`. pykeepass.py:1028,1030 -/
def decodeIso : Option Str → Except PyErr DateTime
  | none => .error .attribute
  | some t => fromIso (replaceZ t)

/-- `PyKeePass._decode_time`. pykeepass.py:1015-1030.
`timedelta(seconds=n)` and the addition raise `OverflowError` past 9999-12-31. -/
def decodeTime (version : Nat × Nat) (t : Option Str) : Except PyErr DateTime :=
  if versionGe4 version then
    match t with
    | none => .error .type
    | some s =>
      match b64decode s with
      | .error .binascii => decodeIso (some s)
      | .error e => .error e
      | .ok b =>
        if b.length ≠ 8 then .error .struct
        else if maxMicros ≤ leNat b * 1000000 then .error .overflow
        else .ok (DateTime.ofMicros (leNat b * 1000000))
  else decodeIso t

/-- `a > b` for aware values; comparing with a naive value raises. -/
def DateTime.gt (a b : DateTime) : Except PyErr Bool :=
  match a.instant, b.instant with
  | some x, some y => .ok (decide (y < x))
  | none, none => .ok (decide (b.wall < a.wall))
  | _, _ => .error .type

/-- `(a - b).days` for aware values: whole days, rounded down. -/
def DateTime.daysSince (a b : DateTime) : Except PyErr Int :=
  match a.instant, b.instant with
  | some x, some y => .ok ((x - y) / (dayMicros : Int))
  | none, none => .ok (((a.wall : Int) - b.wall) / (dayMicros : Int))
  | _, _ => .error .type

/-- `v.astimezone(timezone.utc)`; `localOff` is the offset the system time zone gives to a naive
value. -/
def DateTime.astimezoneUtc (localOff : DateTime → Int) (v : DateTime) : Except PyErr DateTime :=
  let n : Int := v.wall - (v.tz.getD (localOff v))
  if n < 0 ∨ (maxMicros : Int) ≤ n then .error .overflow else .ok (DateTime.ofMicros n.toNat)

end Verif
