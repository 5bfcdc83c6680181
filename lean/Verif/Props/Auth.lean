import Verif.Proof.Auth
import Verif.Props.Route
import Verif.Proof.Proxy
/-!
# C47, C48: the password table and its file

Statements use the vocabulary of `Spec/Auth.lean`.  The digests, the key derivation and the base64
engine are parameters (`Ext`); what is assumed of them is `Base64Ok` and `LengthOk`.
-/

namespace Akasa.Auth

/-! ## A concrete instance, used in the examples and counterexamples -/

/-- A byte as two letters. -/
def exByte (b : UInt8) : Str :=
  [Char.ofNat (97 + b.toNat / 16), Char.ofNat (97 + b.toNat % 16)]

def exEncode (v : Bytes) : Str := v.flatMap exByte

def exDecode : Str → Option Bytes
  | [] => some []
  | [_] => none
  | a :: b :: r =>
    match exDecode r with
    | some v => some (UInt8.ofNat ((a.toNat - 97) * 16 + (b.toNat - 97)) :: v)
    | none => none

/-- Toy digests: the sum of the bytes, repeated. -/
def exSum (v : Bytes) : UInt8 := v.foldl (· + ·) 0

def exX : Ext where
  sha256 v := List.replicate 32 (exSum v)
  sha512 v := List.replicate 64 (exSum v)
  pbkdf2Sha256 i s p n := List.replicate n (exSum p * UInt8.ofNat i + exSum s)
  pbkdf2Sha512 i s p n := List.replicate n (exSum p * UInt8.ofNat i + exSum s)
  b64 := { encode := exEncode, decode := exDecode }

theorem exX_b64 : Base64Ok exX.b64 where
  decode_encode v := by
    induction v with
    | nil => rfl
    | cons b v ih =>
      show exDecode (exEncode (b :: v)) = some (b :: v)
      have ih' : exDecode (exEncode v) = some v := ih
      have hb : UInt8.ofNat (((Char.ofNat (97 + b.toNat / 16)).toNat - 97) * 16
          + ((Char.ofNat (97 + b.toNat % 16)).toNat - 97)) = b :=
        Proxy.forall_uint8 (P := fun b => UInt8.ofNat (((Char.ofNat (97 + b.toNat / 16)).toNat - 97) * 16
          + ((Char.ofNat (97 + b.toNat % 16)).toNat - 97)) = b) (by decide +kernel) b
      simp only [exEncode, exByte, List.flatMap_cons, List.cons_append, List.nil_append, exDecode]
      rw [show exDecode (List.flatMap exByte v) = some v from ih']
      simp only [hb]
  alphabet v := by
    intro c hc
    have hc' : c ∈ exEncode v := hc
    simp only [exEncode, List.mem_flatMap] at hc'
    obtain ⟨b, _, hb⟩ := hc'
    left
    exact Proxy.forall_uint8 (P := fun b => ∀ c ∈ exByte b, c.isAlphanum = true)
      (by decide +kernel) b c hb

theorem exX_length : LengthOk exX :=
  ⟨fun _ _ _ _ => List.length_replicate, fun _ _ _ _ => List.length_replicate⟩

def exSalt : Bytes := List.replicate 12 7

def exTable : Table :=
  insertPassword exX (insertPassword exX [] (str "ann") (.sha512Pbkdf2 1000) exSalt [1, 2])
    (str "b: c") .sha256 exSalt [3]

/-! ## C48 -/

/-- **C48** (partial).  Writing a table to a file — in whatever order its entries are visited —
and loading the file gives a table with the same contents.  Missing from the full claim: names with
a line break or a leading blank, and entries the file format has no room for (see `C48_false`). -/
theorem C48_roundtrip_partial (x : Ext) (hb : Base64Ok x.b64) (t : Table) (hwf : t.WF)
    (hgood : ∀ u p, t.get u = some p → GoodName u ∧ GoodEntry p)
    (items : List (Str × AuthPassword)) (hp : items.Perm t) :
    ∃ t', loadPasswords x (dumpPasswords x items) = some t' ∧ SameTable t' t := by
  obtain ⟨t', h1, h2, _⟩ := reload hb (t := t)
    ⟨hwf, fun e he => hgood e.1 e.2 (FMap.get_of_mem hwf he)⟩ hp
  exact ⟨t', h1, h2⟩

example : GoodName (str "b: c") ∧ exTable.WF ∧ exTable.length = 2 ∧
    (loadPasswords exX (dumpPasswords exX exTable.reverse)).map (·.length) = some 2 := by
  refine ⟨⟨by decide, fun c hc => ?_⟩, by unfold FMap.WF; decide +kernel, by decide +kernel⟩
  cases hc
  decide

/-- **C48** for the tables a broker works with: whatever file a table was loaded from, writing it
and loading it again gives the same contents; nothing is assumed about names or entries. -/
theorem C48_reload (x : Ext) (hb : Base64Ok x.b64) (file : Str) (t : Table)
    (hload : loadPasswords x file = some t)
    (items : List (Str × AuthPassword)) (hp : items.Perm t) :
    ∃ t', loadPasswords x (dumpPasswords x items) = some t' ∧ SameTable t' t := by
  obtain ⟨t', h1, h2, _⟩ := reload hb (load_clean hload) hp
  exact ⟨t', h1, h2⟩

example : (loadPasswords exX (dumpPasswords exX exTable)).isSome = true := by decide +kernel

/-- **C48** fails in general: `insert-password` takes any user name, and one that begins with a
blank comes back without it; one with a line break makes the file unreadable. -/
theorem C48_false :
    (∃ t : Table, loadPasswords exX (dumpPasswords exX t) ≠ none ∧
      t.get (str " a") ≠ none ∧
      ∀ t', loadPasswords exX (dumpPasswords exX t) = some t' → t'.get (str " a") = none) ∧
    (∃ t : Table, t.get (str "a\nb") ≠ none ∧ loadPasswords exX (dumpPasswords exX t) = none) := by
  refine ⟨⟨insertPassword exX [] (str " a") .sha256 exSalt [1], by decide +kernel,
    by decide +kernel, ?_⟩, ⟨insertPassword exX [] (str "a\nb") .sha256 exSalt [1],
    by decide +kernel, by decide +kernel⟩⟩
  intro t' h
  have hr : (loadPasswords exX (dumpPasswords exX
      (insertPassword exX [] (str " a") .sha256 exSalt [1]))).map (·.get (str " a"))
      = some none := by decide +kernel
  rw [h] at hr
  simpa using hr

/-! ## C47 -/

/-- **C47** (partial).  The password is accepted exactly if the user exists and hashing the
password with the stored algorithm, iteration count and salt gives the stored hash.  Missing from
the full claim: stored PBKDF2 hashes that are shorter or longer than the algorithm's output (see
`C47_false`). -/
theorem C47_check_partial (x : Ext) (t : Table) (user : Str) (password : Bytes)
    (hfull : ∀ p, t.get user = some p → FullLength p) :
    checkPassword x t user password = true ↔
      ∃ p, t.get user = some p ∧ hashPassword x p.algorithm p.salt password = p.hashed := by
  unfold checkPassword
  cases hg : t.get user with
  | none => simp
  | some p =>
    have hf := hfull p hg
    obtain ⟨alg, hashed, salt⟩ := p
    cases alg with
    | sha256 => simp [hashPassword]
    | sha512 => simp [hashPassword]
    | sha256Pbkdf2 n =>
      simp only [FullLength] at hf
      have hne : hashed.isEmpty = false := by cases hashed <;> simp_all
      simp [pbkdf2Verify, hashPassword, hf, hne]
    | sha512Pbkdf2 n =>
      simp only [FullLength] at hf
      have hne : hashed.isEmpty = false := by cases hashed <;> simp_all
      simp [pbkdf2Verify, hashPassword, hf, hne]

example : checkPassword exX exTable (str "ann") [1, 2] = true ∧
    checkPassword exX exTable (str "ann") [1, 3] = false ∧
    checkPassword exX exTable (str "bob") [1, 2] = false ∧
    exTable.get (str "ann") ≠ none := by decide +kernel

/-- **C47** fails in general: a file whose stored PBKDF2 hash was cut to its first byte is loaded,
and a password is accepted although its hash is not the stored one. -/
theorem C47_false : ∃ (file : Str) (t : Table) (p : AuthPassword) (password : Bytes),
    loadPasswords exX file = some t ∧ t.get (str "ann") = some p ∧
    checkPassword exX t (str "ann") password = true ∧
    hashPassword exX p.algorithm p.salt password ≠ p.hashed := by
  refine ⟨dumpPasswords exX [(str "ann", ⟨.sha256Pbkdf2 1, [85], exSalt⟩)],
    [(str "ann", ⟨.sha256Pbkdf2 1, [85], exSalt⟩)], ⟨.sha256Pbkdf2 1, [85], exSalt⟩, [1], ?_⟩
  decide +kernel

/-- **C47**, cut hashes.  Of a stored PBKDF2 hash that is shorter or longer than the output of the
algorithm exactly its own length is compared; nothing is accepted if it is empty. -/
theorem C47_cut (x : Ext) (t : Table) (user : Str) (password : Bytes) (p : AuthPassword)
    (hp : t.get user = some p) (n : Nat)
    (ha : p.algorithm = .sha256Pbkdf2 n ∨ p.algorithm = .sha512Pbkdf2 n) :
    checkPassword x t user password = true ↔
      p.hashed ≠ [] ∧
      (p.algorithm = .sha256Pbkdf2 n →
        x.pbkdf2Sha256 n p.salt password p.hashed.length = p.hashed) ∧
      (p.algorithm = .sha512Pbkdf2 n →
        x.pbkdf2Sha512 n p.salt password p.hashed.length = p.hashed) := by
  unfold checkPassword
  rw [hp]
  rcases ha with ha | ha <;> simp [ha, pbkdf2Verify, List.isEmpty_eq_false_iff]

example : checkPassword exX [(str "ann", ⟨.sha256Pbkdf2 1, [], exSalt⟩)] (str "ann") [1] = false ∧
    checkPassword exX [(str "ann", ⟨.sha256Pbkdf2 1, [85], exSalt⟩)] (str "ann") [1] = true := by
  decide +kernel

/-- **C47**, the command `insert-password`: into the table loaded from any file (or a new one), for
every name a line can hold and every positive 32-bit iteration count.  The file written can be
loaded; then the password is accepted, any other one only if it has the same hash, and the other
users are what they were. -/
theorem C47_inserted (x : Ext) (hb : Base64Ok x.b64) (hl : LengthOk x) (file : Option Str)
    (old : Table) (hold : match file with
      | some f => loadPasswords x f = some old
      | none => old = [])
    (user : Str) (hu : GoodName user) (algorithm : HashAlgorithm)
    (ha : match algorithm with
      | .sha256Pbkdf2 n | .sha512Pbkdf2 n => 0 < n ∧ n < 4294967296
      | _ => True)
    (salt password : Bytes) (hsalt : salt.length = 12)
    (items : List (Str × AuthPassword))
    (hp : items.Perm (insertPassword x old user algorithm salt password)) :
    ∃ t', loadPasswords x (dumpPasswords x items) = some t' ∧
      checkPassword x t' user password = true ∧
      (∀ other, checkPassword x t' user other = true ↔
        hashPassword x algorithm salt other = hashPassword x algorithm salt password) ∧
      (∀ v, v ≠ user → t'.get v = old.get v) := by
  have hc : Clean old := by
    cases file with
    | none => exact hold ▸ Clean.nil
    | some f => exact load_clean hold
  have hge : GoodEntry ⟨algorithm, hashPassword x algorithm salt password, salt⟩ := by
    refine ⟨by simp only; omega, ?_⟩
    cases algorithm <;> exact ha
  obtain ⟨t', h1, h2, _⟩ := reload hb (hc.insert hu hge) hp
  have hget : t'.get user = some ⟨algorithm, hashPassword x algorithm salt password, salt⟩ := by
    rw [h2 user, FMap.get_insert_self]
  have hcheck : ∀ other, checkPassword x t' user other = true ↔
      hashPassword x algorithm salt other = hashPassword x algorithm salt password := by
    intro other
    rw [C47_check_partial x t' user other]
    · rw [hget]; simp
    · intro p hp'
      rw [hget] at hp'
      simp only [Option.some.injEq] at hp'
      subst hp'
      cases algorithm <;> simp [FullLength, hashPassword, hl.p256, hl.p512]
  refine ⟨t', h1, (hcheck password).mpr rfl, hcheck, ?_⟩
  intro v hv
  rw [h2 v]
  exact FMap.get_insert_ne _ _ (Ne.symm hv)

example : GoodName (str "ann") ∧ exSalt.length = 12 ∧
    (loadPasswords exX (dumpPasswords exX
        (insertPassword exX exTable (str "ann") .sha512 exSalt [9]))).map
      (fun t => (checkPassword exX t (str "ann") [9], checkPassword exX t (str "ann") [1, 2],
        checkPassword exX t (str "b: c") [3])) = some (true, false, true) := by
  refine ⟨⟨by decide, fun c hc => ?_⟩, by decide +kernel⟩
  cases hc
  decide

/-- **C47**, the command `remove-password`: afterwards the user is refused with every password, and
the other users are what they were. -/
theorem C47_removed (x : Ext) (hb : Base64Ok x.b64) (file : Str)
    (old new : Table) (hold : loadPasswords x file = some old) (user : Str)
    (hrem : removePassword old user = some new)
    (items : List (Str × AuthPassword)) (hp : items.Perm new) :
    ∃ t', loadPasswords x (dumpPasswords x items) = some t' ∧
      (∀ password, checkPassword x t' user password = false) ∧
      (∀ v, v ≠ user → t'.get v = old.get v) := by
  unfold removePassword at hrem
  split at hrem
  · simp only [Option.some.injEq] at hrem
    subst hrem
    obtain ⟨t', h1, h2, _⟩ := reload hb ((load_clean hold).erase user) hp
    refine ⟨t', h1, ?_, ?_⟩
    · intro pw
      unfold checkPassword
      rw [h2 user, FMap.get_erase_self]
    · intro v hv
      rw [h2 v]
      exact FMap.get_erase_ne _ (Ne.symm hv)
  · cases hrem

example : (removePassword exTable (str "ann")).map (fun t =>
    (loadPasswords exX (dumpPasswords exX t)).map
      (fun t => (checkPassword exX t (str "ann") [1, 2], checkPassword exX t (str "b: c") [3])))
    = some (some (false, true)) := by decide +kernel

end Akasa.Auth
