import Verif.Proof.Scram
import Verif.Props.Auth
/-!
# C49: SCRAM-SHA-256

Vocabulary: `Spec/Scram.lean`, with the formulas of RFC 5802.
-/
namespace Akasa.Scram

/-! ## A concrete instance for the examples -/

def exX : Ext where
  hmac k m := [Auth.exSum k * 3 + Auth.exSum m, Auth.exSum m]
  sha256 v := [Auth.exSum v * 5 + 1]
  pbkdf2 p i s := [Auth.exSum p * UInt8.ofNat i + Auth.exSum s]
  b64 := Auth.exX.b64

theorem exX_ok : Base64Ok exX.b64 :=
  ⟨Auth.exX_b64.decode_encode, fun v hc => by
    have := Auth.exX_b64.alphabet v ',' hc
    revert this
    decide⟩

def exE : Exchange where
  authcid := str "user"
  authzid := none
  clientNonce := str "abc"
  serverNonce := str "xyz"
  saltedPassword := hashPassword exX (str "pencil") 4097 [1, 2, 3]
  salt := [1, 2, 3]
  iterations := 4097

/-- The messages of the exchange `exE` up to the client-final message. -/
def exOps : List Op :=
  [.first (str "n,,n=user,r=abc"), .final (str "c=,r=,p="),
   .password exE.saltedPassword exE.salt exE.iterations exE.serverNonce, .first (str "nonsense")]

def exFinal (e : Exchange) : Str :=
  e.withoutProof exX ++ str ",p=" ++ exX.b64.encode (e.clientProof exX)

/-! ## The server -/

/-- **C49**.  Whatever messages a server has processed: a client-final message authenticates exactly
if an exchange is waiting for it (its client-first message was accepted, the server answered it, and
neither another client-first nor a client-final message came in between), and it repeats the header
and the combined nonce of that exchange and carries the proof which RFC 5802 defines over the whole
exchange from the stored salted password, and the user does not ask to act as someone else.  The
answer is then the server signature of that exchange. -/
theorem C49_exact (x : Ext) (ops : List Op) (data reply : Str) :
    ((Server.after x ops).step x (.final data)).2 = some (.authenticated, reply) ↔
      ∃ e proof, Waiting ops e ∧
        isClientFinal data (x.b64.encode (utf8 e.header)) e.nonce proof ∧
        x.b64.decode proof = some (e.clientProof x) ∧
        (e.authzid = none ∨ e.authzid = some e.authcid) ∧
        reply = "v=".toList ++ x.b64.encode (e.serverSignature x) := by
  constructor
  · intro h
    cases hst : Server.after x ops with
    | new => rw [hst] at h; cases h
    | waitingForPassword => rw [hst] at h; cases h
    | done => rw [hst] at h; cases h
    | waitingForClientFinal hp n g b s a z =>
      obtain ⟨e, he, hes⟩ := (state_history x ops).2 _ _ _ _ _ _ _ hst
      rw [hst, ← hes] at h
      obtain ⟨proof, h1, h2, h3, h4⟩ := (final_state x e data reply).mp h
      exact ⟨e, proof, he, h1, h2, h3, h4⟩
  · rintro ⟨e, proof, he, h1, h2, h3, h4⟩
    rw [waiting_state he]
    exact (final_state x e data reply).mpr ⟨proof, h1, h2, h3, h4⟩

example : ((Server.after exX exOps).step exX (.final (exFinal exE))).2
    = some (.authenticated, str "v=" ++ exX.b64.encode (exE.serverSignature exX)) ∧
    ((Server.after exX exOps).step exX
      (.final (exFinal { exE with saltedPassword := [7] }))).2.map (·.1) = some .notAuthenticated := by
  decide +kernel

/-- **C49**.  The server accepts exactly the well-formed client-first messages; another one is reported
as an error and changes nothing. -/
theorem C49_first (s : Server) (data : Str) :
    ((s.clientFirst data).2 = true ↔ ∃ authcid authzid nonce, isClientFirst data authcid authzid nonce) ∧
    ((s.clientFirst data).2 = false → (s.clientFirst data).1 = s) := by
  unfold Server.clientFirst
  cases hp : parseClientFirst data with
  | none =>
    refine ⟨⟨(fun h => by cases h), ?_⟩, fun _ => rfl⟩
    rintro ⟨a, z, n, h⟩
    rw [parseClientFirst_iff.mpr h] at hp
    cases hp
  | some r =>
    obtain ⟨a, z, n⟩ := r
    exact ⟨⟨fun _ => ⟨a, z, n, parseClientFirst_iff.mp hp⟩, fun _ => rfl⟩, fun h => by cases h⟩

example : (Server.new.clientFirst (str "n,,n=user,r=abc")).2 = true ∧
    (Server.new.clientFirst (str "p=x,,n=user,r=abc")).2 = false ∧
    (Server.new.clientFirst (str "n,,r=abc")).2 = false := by decide +kernel

/-- **C49**.  One answer of the server allows one attempt: once a client-final message has come, right
or wrong, no client-final message authenticates until a new client-first message is accepted. -/
theorem C49_one_attempt (x : Ext) (ops : List Op) (e : Exchange) (hw : Waiting ops e) (data : Str)
    (more : List Op) (hmore : ∀ op ∈ more, ¬ op.acceptedFirst) (data' reply : Str) :
    ((Server.after x (ops ++ .final data :: more)).step x (.final data')).2
      ≠ some (.authenticated, reply) := by
  have key : ∀ more : List Op, (∀ op ∈ more, ¬ op.acceptedFirst) →
      more.foldl (fun s op => (s.step x op).1) Server.done = .done := by
    intro more
    induction more with
    | nil => intro _; rfl
    | cons op more ih =>
      intro hm
      rw [List.foldl_cons]
      have hs : (Server.done.step x op).1 = .done := by
        cases op with
        | first d => exact first_refused (hm _ (by simp))
        | password => rfl
        | final => rfl
      rw [hs]
      exact ih (fun o ho => hm o (by simp [ho]))
  rw [after_append, List.foldl_cons, waiting_state hw]
  rw [show ((e.state x).step x (.final data)).1 = .done from rfl, key more hmore]
  intro h
  cases h

example : ((Server.after exX (exOps ++ [.final (str "c=,r=,p="),
    .password exE.saltedPassword exE.salt exE.iterations exE.serverNonce])).step exX
      (.final (exFinal exE))).2 = none := by decide +kernel

/-- The example is an instance: `exE` is waiting after `exOps`. -/
example : Waiting exOps exE := by
  refine ⟨[], str "n,,n=user,r=abc", [.final (str "c=,r=,p=")], [.first (str "nonsense")], rfl,
    ⟨"n".toList, Or.inl rfl, [], by decide⟩, ?_, ?_⟩
  · intro op ho
    simp only [List.mem_singleton] at ho
    subst ho
    simp [Op.acceptedFirst, Op.isPassword]
  · intro op ho
    simp only [List.mem_singleton] at ho
    subst ho
    refine ⟨?_, by simp [Op.isFinal]⟩
    rw [acceptedFirst_iff]
    decide

/-! ## An honest client -/

/-- The whole exchange between a client and a fresh server that looks up the stored data of the user
(`v5/packet/connect.rs:549-646` and `376-545`): the verdict of the server and whether the client
accepts the server; `none` if one of them reports an error. -/
def handshake (x : Ext) (c : Client) (users : Str → Option (Bytes × Bytes × Nat)) (random : Str) :
    Option (Status × Bool) :=
  match c.clientFirst with
  | (c, some m1) =>
    match Server.new.clientFirst m1 with
    | (.waitingForPassword authcid authzid nonce, true) =>
      match users authcid with
      | some (hashed, salt, iterations) =>
        match (Server.waitingForPassword authcid authzid nonce).serverFirst x hashed salt iterations
          random with
        | (s, some m2) =>
          match c.serverFirst x m2 with
          | (c, some m3) =>
            match s.clientFinal x m3 with
            | (_, some (status, m4)) =>
              match c.serverFinal x m4 with
              | some (_, ok) => some (status, ok)
              | none => none
            | _ => none
          | _ => none
        | _ => none
      | none => none
    | _ => none
  | _ => none

theorem honest_exchange (x : Ext) (hb : Base64Ok x.b64) (e : Exchange) (password : Str)
    (hcid : ',' ∉ e.authcid) (hzid : ∀ z, e.authzid = some z → ',' ∉ z)
    (hn : ',' ∉ e.clientNonce) (hr : ',' ∉ e.serverNonce)
    (hi : 0 < e.iterations) (hi' : e.iterations < 65536)
    (hp : e.saltedPassword = hashPassword x password e.iterations e.salt) :
    (Client.start e.authcid password e.authzid e.clientNonce).clientFirst
        = (.waitingForServerFirst e.header password e.clientNonce e.clientFirstBare,
            some (e.header ++ e.clientFirstBare)) ∧
      isClientFirst (e.header ++ e.clientFirstBare) e.authcid e.authzid e.clientNonce ∧
      (Client.waitingForServerFirst e.header password e.clientNonce e.clientFirstBare).serverFirst x
          (e.serverFirst x)
        = (.waitingForServerFinal (e.serverSignature x),
            some (e.withoutProof x ++ ",p=".toList ++ x.b64.encode (e.clientProof x))) ∧
      isClientFinal (e.withoutProof x ++ ",p=".toList ++ x.b64.encode (e.clientProof x))
        (x.b64.encode (utf8 e.header)) e.nonce (x.b64.encode (e.clientProof x)) := by
  have hnr : ',' ∉ e.nonce := by
    unfold Exchange.nonce
    simp only [List.mem_append, not_or]
    exact ⟨hn, hr⟩
  have ht : Client.start e.authcid password e.authzid e.clientNonce
      = .new e.header password e.clientNonce e.authcid := by
    unfold Client.start Exchange.header
    cases e.authzid <;> rfl
  have hcf : e.header ++ e.clientFirstBare
      = Auth.joinComma [['n'], match e.authzid with
          | none => []
          | some z => "a=".toList ++ z, "n=".toList ++ e.authcid, "r=".toList ++ e.clientNonce] := by
    unfold Exchange.header Exchange.clientFirstBare
    cases e.authzid <;> simp [Auth.joinComma]
  refine ⟨?_, ?_, ?_, ?_⟩
  · rw [ht]
    rfl
  · refine ⟨['n'], Or.inl rfl, [], ?_⟩
    rw [hcf, Auth.splitChar_join _ (by simp)]
    · cases e.authzid <;> simp
    · intro a ha
      simp only [List.mem_cons, List.not_mem_nil, or_false] at ha
      rcases ha with rfl | rfl | rfl | rfl
      · decide
      · cases hz : e.authzid with
        | none => simp
        | some z => simpa using hzid z hz
      · simpa using hcid
      · simpa using hn
  · have hd : ∀ c ∈ showNat e.iterations, c ≠ ',' := by
      intro c hc heq
      have := showNat_digits _ c hc
      rw [heq] at this
      exact absurd this (by decide)
    have hs : splitChar ',' (e.serverFirst x)
        = ["r=".toList ++ e.nonce, "s=".toList ++ x.b64.encode e.salt,
            "i=".toList ++ showNat e.iterations] := by
      have : e.serverFirst x = Auth.joinComma ["r=".toList ++ e.nonce,
          "s=".toList ++ x.b64.encode e.salt, "i=".toList ++ showNat e.iterations] := by
        simp [Exchange.serverFirst, Auth.joinComma, showNat]
      rw [this, Auth.splitChar_join _ (by simp)]
      intro a ha
      simp only [List.mem_cons, List.not_mem_nil, or_false] at ha
      rcases ha with rfl | rfl | rfl
      · simpa using hnr
      · simpa using hb.no_comma e.salt
      · simp only [String.reduceToList, List.cons_append, List.nil_append, List.mem_cons, Char.reduceEq,
          false_or]
        exact fun hc => hd _ hc rfl
    have h1 : field 'r' ("r=".toList ++ e.nonce) = some e.nonce := field_iff.mpr rfl
    have h2 : field 's' ("s=".toList ++ x.b64.encode e.salt) = some (x.b64.encode e.salt) :=
      field_iff.mpr rfl
    have h3 : field 'i' ("i=".toList ++ showNat e.iterations) = some (showNat e.iterations) :=
      field_iff.mpr rfl
    have hparse : parseServerFirst x (e.serverFirst x) = some (e.nonce, e.salt, e.iterations) := by
      unfold parseServerFirst
      rw [hs]
      simp only [h1, h2, h3, Option.bind_some, hb.decode_encode,
        parseNonZeroU32_showNat hi (show e.iterations < 4294967296 by omega)]
    unfold Client.serverFirst
    simp only [hparse]
    rw [if_pos (by unfold Exchange.nonce; rw [List.isPrefixOf_iff_prefix]; exact List.prefix_append _ _),
      ← hp, findProofs_eq]
    rfl
  · refine ⟨[], ?_⟩
    have : e.withoutProof x ++ ",p=".toList ++ x.b64.encode (e.clientProof x)
        = Auth.joinComma ["c=".toList ++ x.b64.encode (utf8 e.header), "r=".toList ++ e.nonce,
            "p=".toList ++ x.b64.encode (e.clientProof x)] := by
      simp [Exchange.withoutProof, Auth.joinComma]
    rw [this, Auth.splitChar_join _ (by simp)]
    · simp
    · intro a ha
      simp only [List.mem_cons, List.not_mem_nil, or_false] at ha
      rcases ha with rfl | rfl | rfl
      · simpa using hb.no_comma _
      · simpa using hnr
      · simpa using hb.no_comma _

/-- **C49** (partial).  A client that knows the password (the stored value was made from it with
`hash_password`) is authenticated and accepts the server, whatever the nonces, the salt and the
iteration count.  Missing from the full claim: user names with a comma (`C49_comma_false`) and
clients that announce channel binding support (`C49_y_false`). -/
theorem C49_honest_partial (x : Ext) (hb : Base64Ok x.b64) (authcid password : Str)
    (authzid : Option Str) (clientNonce serverNonce : Str) (salt : Bytes) (iterations : Nat)
    (users : Str → Option (Bytes × Bytes × Nat))
    (huser : users authcid = some (hashPassword x password iterations salt, salt, iterations))
    (hz : authzid = none ∨ authzid = some authcid)
    (hcid : ',' ∉ authcid) (hn : ',' ∉ clientNonce) (hr : ',' ∉ serverNonce)
    (hi : 0 < iterations) (hi' : iterations < 65536) :
    handshake x (Client.start authcid password authzid clientNonce) users serverNonce
      = some (.authenticated, true) := by
  obtain ⟨h1, h2, h3, h4⟩ := honest_exchange x hb
    ⟨authcid, authzid, clientNonce, serverNonce, hashPassword x password iterations salt, salt,
      iterations⟩ password hcid
    (by
      intro z hz'
      simp only at hz'
      rcases hz with hz | hz
      · rw [hz] at hz'; cases hz'
      · rw [hz] at hz'
        simp only [Option.some.injEq] at hz'
        exact hz' ▸ hcid)
    hn hr hi hi' rfl
  generalize he : (⟨authcid, authzid, clientNonce, serverNonce,
    hashPassword x password iterations salt, salt, iterations⟩ : Exchange) = e at h1 h2 h3 h4
  have hfin := (final_state x e _ _).mpr ⟨_, h4, hb.decode_encode _, by rw [← he]; exact hz, rfl⟩
  have hsf := serverFirst_state x e
  have hcf : Server.new.clientFirst (e.header ++ e.clientFirstBare)
      = (.waitingForPassword e.authcid e.authzid e.clientNonce, true) := by
    simp [Server.clientFirst, parseClientFirst_iff.mpr h2]
  have hfinal : (Client.waitingForServerFinal (e.serverSignature x)).serverFinal x
      ("v=".toList ++ x.b64.encode (e.serverSignature x)) = some (.done, true) := by
    unfold Client.serverFinal
    have hl : ¬ (utf8 ("v=".toList ++ x.b64.encode (e.serverSignature x))).length < 2 := by
      rw [utf8_append, List.length_append]
      have : (utf8 "v=".toList).length = 2 := by decide
      omega
    simp only
    rw [if_neg hl]
    simp [hb.decode_encode, show ('v' : Char).utf8Size = 1 from rfl,
      show ('=' : Char).utf8Size = 1 from rfl]
  unfold handshake
  have hst : Client.start authcid password authzid clientNonce
      = Client.start e.authcid password e.authzid e.clientNonce := by rw [← he]
  have hu : users e.authcid = some (e.saltedPassword, e.salt, e.iterations) := by
    rw [← he]; exact huser
  have hsn : serverNonce = e.serverNonce := by rw [← he]
  rw [hst, h1]
  simp only [hcf, hu]
  rw [hsn, hsf]
  simp only [h3]
  have hstep : ((e.state x).clientFinal x
      (e.withoutProof x ++ ",p=".toList ++ x.b64.encode (e.clientProof x)))
      = (.done, some (.authenticated, "v=".toList ++ x.b64.encode (e.serverSignature x))) := by
    have := hfin
    simp only [Server.step] at this
    exact Prod.ext rfl this
  rw [hstep]
  simp only [hfinal]

/-- The stored data of two users. -/
def exUsers (u : Str) : Option (Bytes × Bytes × Nat) :=
  if u = str "user" ∨ u = str "a,b" then
    some (hashPassword exX (str "pencil") 4097 [1, 2, 3], [1, 2, 3], 4097)
  else none

example : handshake exX (Client.start (str "user") (str "pencil") none (str "abc")) exUsers (str "xyz")
      = some (.authenticated, true) ∧
    handshake exX (Client.start (str "user") (str "pencil") (some (str "root")) (str "abc")) exUsers
      (str "xyz") = some (.notAuthorized, false) ∧
    handshake exX (Client.start (str "user") (str "crayon") none (str "abc")) exUsers (str "xyz")
      = some (.notAuthenticated, false) := by decide +kernel

/-- **C49** fails for a user whose name contains a comma, although the user is known to the server
and the client has the right password: the client does not escape the name. -/
theorem C49_comma_false : exUsers (str "a,b") ≠ none ∧
    handshake exX (Client.start (str "a,b") (str "pencil") none (str "abc")) exUsers (str "xyz") = none := by
  decide +kernel

/-- **C49** fails for a client that supports channel binding (flag `y` of RFC 5802): the server
accepts its first message but expects the header of a client without it, so the correct final
message (with the header as it was sent, and the proof over it) is refused. -/
theorem C49_y_false :
    isClientFirst (str "y,,n=user,r=abc") exE.authcid exE.authzid exE.clientNonce ∧
    ((Server.after exX [.first (str "y,,n=user,r=abc"),
        .password exE.saltedPassword exE.salt exE.iterations exE.serverNonce]).step exX
      (.final (str "c=" ++ exX.b64.encode (utf8 (str "y,,")) ++ str ",r=abcxyz,p="
        ++ exX.b64.encode (findProofs exX (str "y,,") exE.clientFirstBare (exE.serverFirst exX)
            exE.saltedPassword exE.nonce).1))).2 = none := by
  refine ⟨⟨"y".toList, Or.inr rfl, [], by decide⟩, by decide +kernel⟩

/-! ## The client's side -/

/-- **C49**.  The client accepts a server only if the final message carries, in base64, the signature
which the password determines over the exchange the client has seen; and only after it has sent its
proof.  (The first message accepted from the server must repeat the client's nonce.) -/
theorem C49_client_checks (x : Ext) (gs2 password nonce bare m2 m3 m4 : Str) (c c' : Client)
    (h1 : (Client.waitingForServerFirst gs2 password nonce bare).serverFirst x m2 = (c, some m3))
    (h2 : c.serverFinal x m4 = some (c', true)) :
    ∃ serverNonce salt iterations sig,
      parseServerFirst x m2 = some (serverNonce, salt, iterations) ∧ nonce <+: serverNonce ∧
      m4 = "v=".toList ++ sig ∧
      x.b64.decode sig = some (findProofs x gs2 bare m2
        (hashPassword x password iterations salt) serverNonce).2 := by
  unfold Client.serverFirst at h1
  simp only at h1
  cases hp : parseServerFirst x m2 with
  | none => rw [hp] at h1; simp at h1
  | some r =>
    obtain ⟨sn, salt, it⟩ := r
    rw [hp] at h1
    simp only at h1
    split at h1
    · rename_i hpre
      simp only [Prod.mk.injEq, Option.some.injEq] at h1
      obtain ⟨rfl, _⟩ := h1
      unfold Client.serverFinal at h2
      simp only at h2
      split at h2
      · simp at h2
      · split at h2
        · rename_i a rest
          split at h2
          · simp at h2
          · split at h2
            · split at h2
              · rename_i b rest'
                split at h2
                · split at h2
                  · rename_i hab
                    obtain ⟨rfl, rfl⟩ := hab
                    simp only [Option.some.injEq, Prod.mk.injEq, decide_eq_true_eq] at h2
                    exact ⟨sn, salt, it, rest', rfl, List.isPrefixOf_iff_prefix.mp hpre, rfl, h2.2⟩
                  · simp at h2
                · cases h2
              · simp at h2
            · cases h2
        · simp at h2
    · simp at h1

example : ((Client.waitingForServerFinal [1, 2]).serverFinal exX (str "v=abac")).map (·.2) = some true ∧
    ((Client.waitingForServerFinal [1, 2]).serverFinal exX (str "v=abad")).map (·.2) = some false := by
  decide +kernel

/-- The client can panic on the message of a dishonest server: text whose second byte is inside a
character. -/
theorem C49_client_panic :
    (Client.waitingForServerFinal [1, 2]).serverFinal exX ['v', '€'] = none := by decide +kernel

end Akasa.Scram
