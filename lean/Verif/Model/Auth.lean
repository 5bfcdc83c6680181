import Verif.Model.Text
import Verif.Model.FMap
/-!
# Password table

Models `protocols/mqtt/auth.rs` and the commands of `akasa/src/main.rs` that change the password
file.  A file is the list of its characters (a file that is not UTF-8 makes `lines` fail and is
not modelled).  The table (`DashMap<String, AuthPassword>`) is an association list; iterating over
a `DashMap` visits the entries in an arbitrary order, which the theorems allow for.
-/

namespace Akasa.Auth

/-- `state.rs:42-48`. -/
inductive HashAlgorithm where
  | sha256
  | sha512
  | sha256Pbkdf2 (iterations : Nat)
  | sha512Pbkdf2 (iterations : Nat)
deriving DecidableEq, Repr

/-- `state.rs:50-55`. -/
structure AuthPassword where
  algorithm : HashAlgorithm
  hashed : Bytes
  salt : Bytes
deriving DecidableEq, Repr

abbrev Table := FMap Str AuthPassword

/-- The external functions: `ring`'s digests and key derivation (`n` is the number of output
bytes), and the base64 engine `STANDARD_NO_PAD`. -/
structure Ext where
  sha256 : Bytes → Bytes
  sha512 : Bytes → Bytes
  pbkdf2Sha256 : (iterations : Nat) → (salt password : Bytes) → (n : Nat) → Bytes
  pbkdf2Sha512 : (iterations : Nat) → (salt password : Bytes) → (n : Nat) → Bytes
  b64 : Base64

/-- `auth.rs:13`. -/
def minSaltLen : Nat := 12

/-- `auth.rs:45-60` `parse_salt`. -/
def parseSalt (x : Ext) (s : Str) : Option Bytes :=
  match x.b64.decode s with
  | some salt => if salt.length < minSaltLen then none else some salt
  | none => none

def sSha256 : Str := ['s', 'h', 'a', '2', '5', '6']
def sSha512 : Str := ['s', 'h', 'a', '5', '1', '2']
def sSha256P : Str := sSha256 ++ ['-', 'p', 'k', 'b', 'd', 'f', '2']
def sSha512P : Str := sSha512 ++ ['-', 'p', 'k', 'b', 'd', 'f', '2']

/-- `auth.rs:75-121` the part of a line after the last colon.  `none` is the error `InvalidData`;
as all failures give the same error, the number of parts is looked at first. -/
def parsePassword (x : Ext) (password : Str) : Option AuthPassword :=
  match splitChar ',' password with
  | [algo, salt, hashed] =>
    if algo = sSha256 then do
      let s ← parseSalt x salt
      let h ← x.b64.decode hashed
      pure ⟨.sha256, h, s⟩
    else if algo = sSha512 then do
      let s ← parseSalt x salt
      let h ← x.b64.decode hashed
      pure ⟨.sha512, h, s⟩
    else none
  | [algo, iterations, salt, hashed] =>
    if algo = sSha256P then do
      let n ← parseNonZeroU32 iterations
      let s ← parseSalt x salt
      let h ← x.b64.decode hashed
      pure ⟨.sha256Pbkdf2 n, h, s⟩
    else if algo = sSha512P then do
      let n ← parseNonZeroU32 iterations
      let s ← parseSalt x salt
      let h ← x.b64.decode hashed
      pure ⟨.sha512Pbkdf2 n, h, s⟩
    else none
  | _ => none

/-- `auth.rs:19-128` one line of the file. -/
def loadLine (x : Ext) (t : Table) (line : Str) : Option Table :=
  let text := trim line
  if text = [] then some t
  else match rsplitOnce ':' text with
    | some (username, password) =>
      match parsePassword x password with
      | some item => some (t.insert username item)
      | none => none
    | none => none

/-- `auth.rs:15-131` `load_passwords`. -/
def loadPasswords (x : Ext) (file : Str) : Option Table :=
  (fileLines file).foldlM (loadLine x) []

/-- `auth.rs:145-165` one line written, with its final newline. -/
def dumpLine (x : Ext) (username : Str) (p : AuthPassword) : Str :=
  let h := x.b64.encode p.hashed
  let s := x.b64.encode p.salt
  match p.algorithm with
  | .sha256 => username ++ [':'] ++ sSha256 ++ [','] ++ s ++ [','] ++ h ++ ['\n']
  | .sha512 => username ++ [':'] ++ sSha512 ++ [','] ++ s ++ [','] ++ h ++ ['\n']
  | .sha256Pbkdf2 n =>
    username ++ [':'] ++ sSha256P ++ [','] ++ showNat n ++ [','] ++ s ++ [','] ++ h ++ ['\n']
  | .sha512Pbkdf2 n =>
    username ++ [':'] ++ sSha512P ++ [','] ++ showNat n ++ [','] ++ s ++ [','] ++ h ++ ['\n']

/-- `auth.rs:133-168` `dump_passwords`, visiting the entries in the order `items`. -/
def dumpPasswords (x : Ext) (items : List (Str × AuthPassword)) : Str :=
  items.flatMap fun e => dumpLine x e.1 e.2

/-- `ring::pbkdf2::verify`: refuses an empty stored value, otherwise derives as many bytes as are
stored and compares. -/
def pbkdf2Verify (f : Nat → Bytes → Bytes → Nat → Bytes) (iterations : Nat)
    (salt password stored : Bytes) : Bool :=
  !stored.isEmpty && f iterations salt password stored.length == stored

/-- `auth.rs:170-209` `check_password`. -/
def checkPassword (x : Ext) (t : Table) (username : Str) (password : Bytes) : Bool :=
  match t.get username with
  | some item =>
    match item.algorithm with
    | .sha256 => x.sha256 (password ++ item.salt) == item.hashed
    | .sha512 => x.sha512 (password ++ item.salt) == item.hashed
    | .sha256Pbkdf2 n => pbkdf2Verify x.pbkdf2Sha256 n item.salt password item.hashed
    | .sha512Pbkdf2 n => pbkdf2Verify x.pbkdf2Sha512 n item.salt password item.hashed
  | none => false

/-- `auth.rs:211-236` `hash_password`. -/
def hashPassword (x : Ext) (algorithm : HashAlgorithm) (salt password : Bytes) : Bytes :=
  match algorithm with
  | .sha256 => x.sha256 (password ++ salt)
  | .sha512 => x.sha512 (password ++ salt)
  | .sha256Pbkdf2 n => x.pbkdf2Sha256 n salt password 32
  | .sha512Pbkdf2 n => x.pbkdf2Sha512 n salt password 64

/-- `akasa/src/main.rs:128-181` the command `insert-password`: `salt` are the random bytes drawn,
`old` is the table loaded from the file (empty with `--create`).  Returns the new table, which is
then dumped to the file. -/
def insertPassword (x : Ext) (old : Table) (username : Str) (algorithm : HashAlgorithm)
    (salt password : Bytes) : Table :=
  old.insert username ⟨algorithm, hashPassword x algorithm salt password, salt⟩

/-- `akasa/src/main.rs:182-191` the command `remove-password`: `none` if there is no such user
(then the file is not written). -/
def removePassword (old : Table) (username : Str) : Option Table :=
  if old.contains username then some (old.erase username) else none

end Akasa.Auth
