import Verif.Model.Auth
/-!
# Vocabulary for C47 and C48
-/

namespace Akasa.Auth

/-- What is assumed of the base64 engine: decoding inverts encoding, and the encoding uses letters,
digits, `+` and `/` only. -/
structure Base64Ok (b : Base64) : Prop where
  decode_encode : ∀ v, b.decode (b.encode v) = some v
  alphabet : ∀ v, ∀ c ∈ b.encode v, c.isAlphanum = true ∨ c = '+' ∨ c = '/'

/-- What is assumed of the key derivation: it returns as many bytes as asked for. -/
structure LengthOk (x : Ext) : Prop where
  p256 : ∀ i s p n, (x.pbkdf2Sha256 i s p n).length = n
  p512 : ∀ i s p n, (x.pbkdf2Sha512 i s p n).length = n

/-- A user name that survives the file format: no line break, no blank at the beginning. -/
def GoodName (u : Str) : Prop := '\n' ∉ u ∧ ∀ c, u.head? = some c → isWs c = false

/-- An entry the file format can hold: a positive 32-bit iteration count and a long enough salt. -/
def GoodEntry (p : AuthPassword) : Prop :=
  12 ≤ p.salt.length ∧
    match p.algorithm with
    | .sha256Pbkdf2 n | .sha512Pbkdf2 n => 0 < n ∧ n < 4294967296
    | _ => True

/-- Two tables with the same contents. -/
def SameTable (a b : Table) : Prop := ∀ u, a.get u = b.get u

/-- The stored hash has the full length of its algorithm (as those made by `insert-password`). -/
def FullLength (p : AuthPassword) : Prop :=
  match p.algorithm with
  | .sha256Pbkdf2 _ => p.hashed.length = 32
  | .sha512Pbkdf2 _ => p.hashed.length = 64
  | _ => True

end Akasa.Auth
