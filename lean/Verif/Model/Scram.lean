import Verif.Model.Text
/-!
# SCRAM-SHA-256 (`protocols/scram/`)

Texts are lists of characters.  The different errors are not told apart.  External: HMAC-SHA-256,
SHA-256, PBKDF2 (`ring`), base64 (`STANDARD`) and the random characters of the nonces.
-/
namespace Akasa.Scram

/-- `str::as_bytes`. -/
def utf8 (s : Str) : Bytes := s.flatMap String.utf8EncodeChar

/-- The external functions.  All digests have 32 bytes. -/
structure Ext where
  hmac : (key message : Bytes) → Bytes
  sha256 : Bytes → Bytes
  pbkdf2 : (password : Bytes) → (iterations : Nat) → (salt : Bytes) → Bytes
  b64 : Base64

/-- `scram/mod.rs:34-48` `hash_password`. -/
def hashPassword (x : Ext) (password : Str) (iterations : Nat) (salt : Bytes) : Bytes :=
  x.pbkdf2 (utf8 password) iterations salt

def sClientKey : Bytes := utf8 ['C', 'l', 'i', 'e', 'n', 't', ' ', 'K', 'e', 'y']
def sServerKey : Bytes := utf8 ['S', 'e', 'r', 'v', 'e', 'r', ' ', 'K', 'e', 'y']

/-- `scram/mod.rs:50-90` `find_proofs`: client proof and server signature. -/
def findProofs (x : Ext) (gs2header clientFirstBare serverFirst : Str) (saltedPassword : Bytes)
    (nonce : Str) : Bytes × Bytes :=
  let withoutProof := ['c', '='] ++ x.b64.encode (utf8 gs2header) ++ [',', 'r', '='] ++ nonce
  let authMessage := utf8 clientFirstBare ++ utf8 [','] ++ utf8 serverFirst ++ utf8 [',']
    ++ utf8 withoutProof
  let clientKey := x.hmac saltedPassword sClientKey
  let serverKey := x.hmac saltedPassword sServerKey
  let storedKey := x.sha256 clientKey
  (List.zipWith (· ^^^ ·) clientKey (x.hmac storedKey authMessage), x.hmac serverKey authMessage)

/-- `scram/server.rs:13-18` `AuthenticationStatus`. -/
inductive Status where
  | authenticated
  | notAuthenticated
  | notAuthorized
deriving DecidableEq, Repr

/-- `scram/server.rs:20-39` `ScramServer`. -/
inductive Server where
  | new
  | waitingForPassword (authcid : Str) (authzid : Option Str) (clientNonce : Str)
  | waitingForClientFinal (hashedPassword : Bytes) (nonce gs2header clientFirstBare serverFirst : Str)
      (authcid : Str) (authzid : Option Str)
  | done
deriving DecidableEq, Repr

/-- `scram/server.rs:205-221` `next_field`, `223-232` `parse_field` on one part. -/
def field (key : Char) : Str → Option Str
  | a :: b :: rest => if a = key ∧ b = '=' then some rest else none
  | _ => none

/-- `scram/server.rs:47-64`: the authorisation and authentication identities and the nonce of a
client-first message; parts after them are ignored. -/
def parseClientFirst (data : Str) : Option (Str × Option Str × Str) :=
  match splitChar ',' data with
  | token :: z :: c :: n :: _ =>
    if token = ['n'] ∨ token = ['y'] then
      match (if z = [] then some none else (field 'a' z).map some), field 'n' c, field 'r' n with
      | some authzid, some authcid, some nonce => some (authcid, authzid, nonce)
      | _, _, _ => none
    else none
  | _ => none

/-- `scram/server.rs:46-72` `decode_client_first`: possible in every state.  The flag says whether
it succeeded; on an error the state does not change. -/
def Server.clientFirst (s : Server) (data : Str) : Server × Bool :=
  match parseClientFirst data with
  | some (authcid, authzid, nonce) => (.waitingForPassword authcid authzid nonce, true)
  | none => (s, false)

/-- `scram/server.rs:90-136` `encode_server_first`; `random` are the characters drawn for the
nonce. -/
def Server.serverFirst (x : Ext) (s : Server) (hashedPassword salt : Bytes) (iterations : Nat)
    (random : Str) : Server × Option Str :=
  match s with
  | .waitingForPassword authcid authzid clientNonce =>
    let nonce := clientNonce ++ random
    let gs2header := match authzid with
      | some az => ['n', ',', 'a', '='] ++ az ++ [',']
      | none => ['n', ',', ',']
    let clientFirstBare := ['n', '='] ++ authcid ++ [',', 'r', '='] ++ clientNonce
    let serverFirst := ['r', '='] ++ nonce ++ [',', 's', '='] ++ x.b64.encode salt
      ++ [',', 'i', '='] ++ showNat iterations
    (.waitingForClientFinal hashedPassword nonce gs2header clientFirstBare serverFirst authcid authzid,
      some serverFirst)
  | s => (s, none)

/-- `scram/server.rs:234-240` `parse_client_final`. -/
def parseClientFinal (data : Str) : Option (Str × Str × Str) :=
  match splitChar ',' data with
  | c :: r :: p :: _ =>
    match field 'c' c, field 'r' r, field 'p' p with
    | some gs2, some nonce, some proof => some (gs2, nonce, proof)
    | _, _, _ => none
  | _ => none

/-- `scram/server.rs:138-202` `decode_client_final`; `none` = error. -/
def Server.clientFinal (x : Ext) (s : Server) (data : Str) : Server × Option (Status × Str) :=
  match s with
  | .waitingForClientFinal hashed nonce gs2header clientFirstBare serverFirst authcid authzid =>
    (.done,
      match parseClientFinal data with
      | none => none
      | some (gs2, recvNonce, proof) =>
        if x.b64.encode (utf8 gs2header) ≠ gs2 then none
        else if recvNonce ≠ nonce then none
        else
          let p := findProofs x gs2header clientFirstBare serverFirst hashed nonce
          match x.b64.decode proof with
          | none => none
          | some bytes =>
            if bytes ≠ p.1 then some (.notAuthenticated, "e=Invalid Password".toList)
            else match authzid with
              | some az =>
                if authcid ≠ az then
                  some (.notAuthorized, "e=User '".toList ++ authcid
                    ++ "' not authorized to act as '".toList ++ az ++ ['\''])
                else some (.authenticated, ['v', '='] ++ x.b64.encode p.2)
              | none => some (.authenticated, ['v', '='] ++ x.b64.encode p.2))
  | s => (s, none)

/-- What is done with a server. -/
inductive Op where
  | first (data : Str)
  | password (hashed salt : Bytes) (iterations : Nat) (random : Str)
  | final (data : Str)
deriving DecidableEq, Repr

/-- The verdict on a client-final message, if there is one. -/
def Server.step (x : Ext) (s : Server) : Op → Server × Option (Status × Str)
  | .first d => ((s.clientFirst d).1, none)
  | .password h salt i r => ((s.serverFirst x h salt i r).1, none)
  | .final d => s.clientFinal x d

/-- The state after a sequence of operations. -/
def Server.after (x : Ext) (ops : List Op) : Server :=
  ops.foldl (fun s op => (s.step x op).1) .new

/-- `scram/client.rs:13-31` `ScramClient`. -/
inductive Client where
  | new (gs2header password nonce authcid : Str)
  | waitingForServerFirst (gs2header password clientNonce clientFirstBare : Str)
  | waitingForServerFinal (signature : Bytes)
  | done
deriving DecidableEq, Repr

/-- `scram/client.rs:38-60` `with_rng`; `random` are the characters drawn for the nonce. -/
def Client.start (authcid password : Str) (authzid : Option Str) (random : Str) : Client :=
  .new (match authzid with
    | some az => ['n', ',', 'a', '='] ++ az ++ [',']
    | none => ['n', ',', ',']) password random authcid

/-- `scram/client.rs:62-92` `encode_client_first`.  The name is sent as it is: it is escaped only
if it contains nothing to escape (lines 77-81). -/
def Client.clientFirst (c : Client) : Client × Option Str :=
  match c with
  | .new gs2header password nonce authcid =>
    let bare := ['n', '='] ++ authcid ++ [',', 'r', '='] ++ nonce
    (.waitingForServerFirst gs2header password nonce bare, some (gs2header ++ bare))
  | c => (c, none)

/-- `scram/client.rs:152-177` `parse_server_first`: nonce, salt, iteration count. -/
def parseServerFirst (x : Ext) (data : Str) : Option (Str × Bytes × Nat) :=
  match splitChar ',' data with
  | r :: s :: i :: _ =>
    match field 'r' r, (field 's' s).bind x.b64.decode, (field 'i' i).bind parseNonZeroU32 with
    | some nonce, some salt, some n => some (nonce, salt, n)
    | _, _, _ => none
  | _ => none

/-- `scram/client.rs:94-132` `decode_server_first`: the client-final message; `none` = error. -/
def Client.serverFirst (x : Ext) (c : Client) (data : Str) : Client × Option Str :=
  match c with
  | .waitingForServerFirst gs2header password clientNonce bare =>
    match parseServerFirst x data with
    | none => (.done, none)
    | some (nonce, salt, iterations) =>
      if clientNonce.isPrefixOf nonce then
        let p := findProofs x gs2header bare data (hashPassword x password iterations salt) nonce
        (.waitingForServerFinal p.2, some (['c', '='] ++ x.b64.encode (utf8 gs2header)
          ++ [',', 'r', '='] ++ nonce ++ [',', 'p', '='] ++ x.b64.encode p.1))
      else (.done, none)
  | c => (c, none)

/-- `scram/client.rs:134-149` `decode_server_final` and `179-190` `parse_server_final`: is the
signature of the server right?  `none` = panic (`&data[..2]` when byte 2 is inside a character). -/
def Client.serverFinal (x : Ext) (c : Client) (data : Str) : Option (Client × Bool) :=
  match c with
  | .waitingForServerFinal signature =>
    if (utf8 data).length < 2 then some (.done, false)
    else match data with
      | a :: rest =>
        if a.utf8Size = 2 then some (.done, false)
        else if a.utf8Size = 1 then
          match rest with
          | b :: rest =>
            if b.utf8Size = 1 then
              if a = 'v' ∧ b = '=' then
                some (.done, decide (x.b64.decode rest = some signature))
              else some (.done, false)
            else none
          | [] => some (.done, false)
        else none
      | [] => some (.done, false)
  | c => some (c, false)

end Akasa.Scram
