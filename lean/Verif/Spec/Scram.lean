import Verif.Model.Scram
/-!
# Vocabulary for C49: the messages and proofs of RFC 5802
-/
namespace Akasa.Scram

/-- What is assumed of the base64 engine: decoding inverts encoding, and there is no comma in an
encoding. -/
structure Base64Ok (b : Base64) : Prop where
  decode_encode : ∀ v, b.decode (b.encode v) = some v
  no_comma : ∀ v, ',' ∉ b.encode v

/-- One exchange: who wants to be authenticated as whom, the nonces, and what the server has stored
for the user. -/
structure Exchange where
  authcid : Str
  authzid : Option Str
  clientNonce : Str
  serverNonce : Str
  saltedPassword : Bytes
  salt : Bytes
  iterations : Nat

/-- `gs2-header` of RFC 5802 without channel binding: `n,,` or `n,a=authzid,`. -/
def Exchange.header (e : Exchange) : Str :=
  match e.authzid with
  | none => "n,,".toList
  | some z => "n,a=".toList ++ z ++ ",".toList

/-- The nonce of the exchange. -/
def Exchange.nonce (e : Exchange) : Str := e.clientNonce ++ e.serverNonce

/-- `client-first-message-bare`. -/
def Exchange.clientFirstBare (e : Exchange) : Str :=
  "n=".toList ++ e.authcid ++ ",r=".toList ++ e.clientNonce

/-- `server-first-message`. -/
def Exchange.serverFirst (x : Ext) (e : Exchange) : Str :=
  "r=".toList ++ e.nonce ++ ",s=".toList ++ x.b64.encode e.salt ++ ",i=".toList
    ++ Nat.toDigits 10 e.iterations

/-- `client-final-message-without-proof`. -/
def Exchange.withoutProof (x : Ext) (e : Exchange) : Str :=
  "c=".toList ++ x.b64.encode (utf8 e.header) ++ ",r=".toList ++ e.nonce

/-- `AuthMessage`. -/
def Exchange.authMessage (x : Ext) (e : Exchange) : Str :=
  e.clientFirstBare ++ ",".toList ++ e.serverFirst x ++ ",".toList ++ e.withoutProof x

/-- `ClientProof := ClientKey XOR HMAC(H(ClientKey), AuthMessage)`,
`ClientKey := HMAC(SaltedPassword, "Client Key")`. -/
def Exchange.clientProof (x : Ext) (e : Exchange) : Bytes :=
  let clientKey := x.hmac e.saltedPassword (utf8 "Client Key".toList)
  List.zipWith (· ^^^ ·) clientKey (x.hmac (x.sha256 clientKey) (utf8 (e.authMessage x)))

/-- `ServerSignature := HMAC(HMAC(SaltedPassword, "Server Key"), AuthMessage)`. -/
def Exchange.serverSignature (x : Ext) (e : Exchange) : Bytes :=
  x.hmac (x.hmac e.saltedPassword (utf8 "Server Key".toList)) (utf8 (e.authMessage x))

/-- The parts of a message separated by commas; RFC 5802 messages have the parts in this order. -/
def hasParts (data : Str) (parts : List Str) : Prop := ∃ more, splitChar ',' data = parts ++ more

/-- A client-first message with this contents (further parts are allowed). -/
def isClientFirst (data : Str) (authcid : Str) (authzid : Option Str) (clientNonce : Str) : Prop :=
  ∃ flag, (flag = "n".toList ∨ flag = "y".toList) ∧
    hasParts data [flag, match authzid with
      | none => []
      | some z => "a=".toList ++ z, "n=".toList ++ authcid, "r=".toList ++ clientNonce]

/-- A client-final message with this header (base64), nonce and proof (base64). -/
def isClientFinal (data : Str) (header nonce proof : Str) : Prop :=
  hasParts data ["c=".toList ++ header, "r=".toList ++ nonce, "p=".toList ++ proof]

/-- The operation is a client-first message that the server accepts. -/
def Op.acceptedFirst : Op → Prop
  | .first d => ∃ a z n, isClientFirst d a z n
  | _ => False

def Op.isPassword : Op → Prop
  | .password .. => True
  | _ => False

def Op.isFinal : Op → Prop
  | .final _ => True
  | _ => False

/-- `ops` contains the exchange `e`, which is waiting for its client-final message: a client-first
message, then the server's answer, and since then nothing that would have ended or replaced it. -/
def Waiting (ops : List Op) (e : Exchange) : Prop :=
  ∃ before d between after,
    ops = before ++ .first d :: between
      ++ .password e.saltedPassword e.salt e.iterations e.serverNonce :: after ∧
    isClientFirst d e.authcid e.authzid e.clientNonce ∧
    (∀ op ∈ between, ¬ op.acceptedFirst ∧ ¬ op.isPassword) ∧
    (∀ op ∈ after, ¬ op.acceptedFirst ∧ ¬ op.isFinal)

end Akasa.Scram
