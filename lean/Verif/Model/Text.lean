import Verif.Model.Num

/-!
# Text helpers of the C library used by the option code

Strings are lists of characters without NUL (`std::string::c_str` would cut them there).  The "C" locale is assumed:
`tolower`/`toupper` change ASCII letters only, `isspace` is true for the six ASCII blank characters.
-/

namespace Verif

/-- `std::string`. -/
abbrev Str := List Char

namespace Text

/-- `tolower` applied to all characters: `OptionsList::lowercase` (`/repo/src/Common/IpOptionsList.cpp:638-648`). -/
def lower (s : Str) : Str := s.map Char.toLower

/-- C `isspace` in the "C" locale. -/
def isSpace (c : Char) : Bool :=
  c == ' ' || c == '\t' || c == '\n' || c == '\r' || c == Char.ofNat 11 || c == Char.ofNat 12

/-- ASCII digit. -/
def isDigit (c : Char) : Bool := decide (48 ≤ c.toNat ∧ c.toNat ≤ 57)

/-- The digit character of `d < 10`. -/
def digitChar (d : Nat) : Char := Char.ofNat (48 + d)

/-- Decimal digits of `n` (fuel `> n` suffices). -/
def natDecAux : Nat → Nat → Str
  | 0, _ => []
  | f + 1, n => if n < 10 then [digitChar n] else natDecAux f (n / 10) ++ [digitChar (n % 10)]

/-- `%d` for a non-negative number. -/
def natDec (n : Nat) : Str := natDecAux (n + 1) n

/-- `%d` / `%lld` (`IPOPT_INDEX_FORMAT`, used in `/repo/src/Common/IpOptionsList.cpp:205-206`). -/
def intDec (i : Int) : Str := if i < 0 then '-' :: natDec i.natAbs else natDec i.natAbs

/-- Read a maximal run of digits, accumulating the value; result: value, number of digits, rest. -/
def digitsVal : Nat → Nat → Str → Nat × Nat × Str
  | acc, k, [] => (acc, k, [])
  | acc, k, c :: cs => if isDigit c then digitsVal (acc * 10 + (c.toNat - 48)) (k + 1) cs else (acc, k, c :: cs)

/-- Optional sign. -/
def sign : Str → Bool × Str
  | '-' :: cs => (true, cs)
  | '+' :: cs => (false, cs)
  | cs => (false, cs)

/-- C `strtol(s, &p_end, 10)` with 64-bit `long`: value (saturated) and remaining text.  Without digits the value is 0 and
nothing is consumed. -/
def strtol (s : Str) : Int × Str :=
  let t := s.dropWhile isSpace
  let (neg, t1) := sign t
  let (v, k, rest) := digitsVal 0 0 t1
  if k = 0 then (0, s)
  else (max (-2^63) (min (2^63 - 1) (if neg then -(v : Int) else v)), rest)

/-- The check `*p_end == '\0' || isspace(*p_end)` made after `strtol`/`strtod`
(`/repo/src/Common/IpOptionsList.cpp:553, 620, 760, 776`). -/
def endOk : Str → Bool
  | [] => true
  | c :: _ => isSpace c

/-- Replacement of `d`/`D` by `e` before calling `strtod` (`/repo/src/Common/IpOptionsList.cpp:540-550, 747-757`). -/
def dToE (s : Str) : Str := s.map (fun c => if c = 'd' ∨ c = 'D' then 'e' else c)

/-- Case-insensitive prefix test; returns the rest. -/
def stripPrefixCI : Str → Str → Option Str
  | [], s => some s
  | _ :: _, [] => none
  | p :: ps, c :: cs => if c.toLower = p then stripPrefixCI ps cs else none

/-- Optional exponent part `e[sign]digits`; if malformed nothing is consumed. -/
def exponent (s : Str) : Int × Str :=
  match s with
  | c :: cs =>
    if c = 'e' ∨ c = 'E' then
      let (neg, t) := sign cs
      let (v, k, rest) := digitsVal 0 0 t
      if k = 0 then (0, s) else (if neg then -(v : Int) else v, rest)
    else (0, s)
  | [] => (0, s)

/-- `10^e` for an integer exponent. -/
def pow10 (e : Int) : ℚ := if 0 ≤ e then (10 : ℚ) ^ e.toNat else 1 / (10 : ℚ) ^ (-e).toNat

/-- Optional fraction `.digits`: mantissa and digit counts after it. -/
def fraction (v k : Nat) (s : Str) : Nat × Nat × Nat × Str :=
  match s with
  | '.' :: cs =>
    let (v', k', rest) := digitsVal v 0 cs
    if k + k' = 0 then (v, k, 0, s) else (v', k + k', k', rest)
  | _ => (v, k, 0, s)

/-- C `strtod`: value and remaining text.  Decimal numbers, infinities and NaN; hexadecimal floats are not modelled.
`rnd` is the rounding of an exact rational to the nearest representable number. -/
def strtod (rnd : ℚ → Num) (s : Str) : Num × Str :=
  let t := s.dropWhile isSpace
  let (neg, t1) := sign t
  let sg : Num → Num := fun x => if neg then -x else x
  match stripPrefixCI "infinity".toList t1 with
  | some rest => (sg .pinf, rest)
  | none =>
  match stripPrefixCI "inf".toList t1 with
  | some rest => (sg .pinf, rest)
  | none =>
  match stripPrefixCI "nan".toList t1 with
  | some rest => (.nan, rest)
  | none =>
    let (v, k, r1) := digitsVal 0 0 t1
    let (v, k, kf, r2) := fraction v k r1
    if k = 0 then (.fin 0, s)
    else
      let (e, r3) := exponent r2
      (sg (rnd (v * pow10 (e - kf))), r3)

/-- Round `a / b` to the nearest integer, ties to even. -/
def roundHalfEven (a b : Nat) : Nat :=
  let q := a / b
  let r := a % b
  if 2 * r < b then q else if b < 2 * r then q + 1 else if q % 2 = 0 then q else q + 1

/-- Decimal exponent of `n / d > 0`: the `e` with `10^e ≤ n/d < 10^(e+1)`. -/
def decExp (n d : Nat) : Int :=
  if d ≤ n then (natDec (n / d)).length - 1
  else -((if (d + n - 1) / n - 1 = 0 then 0 else (natDec ((d + n - 1) / n - 1)).length : Nat) : Int)

/-- Six significant digits of `n / d > 0` and the exponent after rounding. -/
def sixDigits (n d : Nat) : Nat × Int :=
  let e := decExp n d
  let m := if e ≤ 5 then roundHalfEven (n * 10 ^ (5 - e).toNat) d else roundHalfEven n (d * 10 ^ (e - 5).toNat)
  if m = 1000000 then (100000, e + 1) else (m, e)

/-- Remove trailing zeros. -/
def stripZeros (s : Str) : Str := (s.reverse.dropWhile (· = '0')).reverse

/-- Append a fraction if it is not empty. -/
def withFrac (ip fp : Str) : Str := if fp = [] then ip else ip ++ '.' :: fp

/-- `%g` of `n / d > 0`. -/
def fmtGPos (n d : Nat) : Str :=
  let (m, e) := sixDigits n d
  let ds := natDec m
  if -4 ≤ e ∧ e < 6 then
    if 0 ≤ e then withFrac (ds.take (e.toNat + 1)) (stripZeros (ds.drop (e.toNat + 1)))
    else withFrac ['0'] (stripZeros (List.replicate ((-e).toNat - 1) '0' ++ ds))
  else
    withFrac (ds.take 1) (stripZeros (ds.drop 1)) ++
      'e' :: (if e < 0 then '-' else '+') :: (if e.natAbs < 10 then '0' :: natDec e.natAbs else natDec e.natAbs)

/-- C `snprintf("%g", value)` as used by `OptionsList::SetNumericValue` (`/repo/src/Common/IpOptionsList.cpp:118-119`):
six significant digits, correctly rounded, trailing zeros removed. -/
def fmtG : Num → Str
  | .nan => "nan".toList
  | .pinf => "inf".toList
  | .ninf => "-inf".toList
  | .fin q => if q = 0 then ['0'] else if q < 0 then '-' :: fmtGPos q.num.natAbs q.den else fmtGPos q.num.natAbs q.den

end Text
end Verif
