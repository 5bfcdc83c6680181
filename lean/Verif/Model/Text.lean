import Verif.Model.Types
/-!
# Functions of Rust's standard library on strings, and base64

A `&str` is the list of its characters.  These functions are used by the password file parser
(`protocols/mqtt/auth.rs`) and by SCRAM (`protocols/scram/`).
-/

namespace Akasa

/-- `str::split(c)`. -/
def splitChar (c : Char) : Str → List Str
  | [] => [[]]
  | x :: xs =>
    if x = c then [] :: splitChar c xs
    else match splitChar c xs with
      | [] => [[x]]
      | y :: ys => (x :: y) :: ys

/-- `str::rsplit_once(c)`: before and after the last occurrence of `c`. -/
def rsplitOnce (c : Char) : Str → Option (Str × Str)
  | [] => none
  | x :: xs =>
    match rsplitOnce c xs with
    | some (a, b) => some (x :: a, b)
    | none => if x = c then some ([], xs) else none

/-- `char::is_whitespace`: the Unicode property White_Space. -/
def isWs (c : Char) : Bool :=
  let n := c.toNat
  (9 ≤ n && n ≤ 13) || n == 0x20 || n == 0x85 || n == 0xA0 || n == 0x1680
    || (0x2000 ≤ n && n ≤ 0x200A) || n == 0x2028 || n == 0x2029 || n == 0x202F || n == 0x205F
    || n == 0x3000

/-- `str::trim`. -/
def trim (s : Str) : Str := ((s.dropWhile isWs).reverse.dropWhile isWs).reverse

/-- Removes one final `'\r'`. -/
def stripCr (s : Str) : Str := if s.getLast? = some '\r' then s.dropLast else s

/-- `BufRead::lines`: pieces ended by `'\n'`; a last piece without it counts if it is not empty. -/
def fileLines (s : Str) : List Str :=
  let ps := splitChar '\n' s
  (if ps.getLast? = some [] then ps.dropLast else ps).map stripCr

/-- The optional sign of `u32::from_str`. -/
def stripPlus : Str → Str
  | '+' :: rest => rest
  | s => s

/-- `u32::from_str` (decimal, optional `+`). -/
def parseU32 (s : Str) : Option Nat :=
  if stripPlus s = [] then none
  else if (stripPlus s).all Char.isDigit then
    if Nat.ofDigitChars 10 (stripPlus s) 0 < 4294967296 then
      some (Nat.ofDigitChars 10 (stripPlus s) 0)
    else none
  else none

/-- `NonZeroU32::from_str` / `parse::<u32>` followed by `NonZeroU32::new`. -/
def parseNonZeroU32 (s : Str) : Option Nat :=
  match parseU32 s with
  | some 0 => none
  | r => r

/-- Integer formatting. -/
def showNat (n : Nat) : Str := Nat.toDigits 10 n

/-- A base64 engine of the crate `base64` (external). -/
structure Base64 where
  encode : Bytes → Str
  decode : Str → Option Bytes

end Akasa
