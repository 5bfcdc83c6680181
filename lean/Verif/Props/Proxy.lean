import Verif.Proof.Proxy
/-!
# C45, C46: PROXY protocol headers

`parseHeader x tls input` is the parser of the broker: `input` is what the peer sends, `tls` says
whether TLS is terminated at the proxy, `x` holds the checksum function and the UTF-8 check.
`Spec/Proxy.lean` describes headers as they appear on the wire.
-/

namespace Akasa.Proxy

/-- Example: a checksum function, and no restriction on strings. -/
def exExt : Ext := ⟨fun l => UInt32.ofNat (l.foldl (fun n b => n * 31 + b.toNat) 7), fun _ => true⟩

def exAddr : Addresses := .ipv4 ⟨#[127, 0, 0, 1], rfl⟩ 60133 ⟨#[10, 0, 0, 7], rfl⟩ 8080

/-- An authority "mq", a checksum and an SSL field, as sent by a proxy that terminates TLS. -/
def exTlvs : List Tlv :=
  let zero : List Tlv := [⟨0x02, [109, 113]⟩, ⟨0x03, [0, 0, 0, 0]⟩, ⟨0x20, [1, 0, 0, 0, 0]⟩]
  [⟨0x02, [109, 113]⟩,
   ⟨0x03, fourBytes (exExt.crc (encodeHeader .stream exAddr zero)).toNat⟩,
   ⟨0x20, [1, 0, 0, 0, 0]⟩]

/-- C45: the parser accepts an input as a proxied connection, with protocol, addresses and
authority `h` and leaving `rest` unread, exactly if the input is the wire form of a header with
that protocol and these addresses and acceptable extension fields, followed by `rest`. -/
theorem C45_header (x : Ext) (tls : Bool) (input rest : Bytes) (h : Header) :
    parseHeader x tls input = .ok (some h, rest) ↔
      ∃ ts, Acceptable x tls h.protocol h.addresses ts ∧ h.sni = authoritySent ts
        ∧ input = encodeHeader h.protocol h.addresses ts ++ rest := by
  have haddr : ∀ a : Addresses, a.encode.length ≤ 216 := by
    intro a
    rw [encode_addrLen]
    cases a <;> simp [Addresses.family, Family.addrLen]
  constructor
  · intro hp
    by_cases hs : ∃ b13 b14 l0 l1 s, input = prefixBytes ++ [b13, b14, l0, l1] ++ s
    · obtain ⟨b13, b14, l0, l1, s, rfl⟩ := hs
      have hp0 := hp
      rw [parseHeader_signed] at hp
      split at hp
      · cases hp
      rename_i hver
      rw [Decidable.not_not] at hver
      split at hp
      · split at hp <;> cases hp
      split at hp
      · cases hp
      rename_i hcmd
      rw [Decidable.not_not] at hcmd
      split at hp
      · cases hp
      · cases hp
      rename_i fam hfam
      split at hp
      · cases hp
      rename_i hlen
      split at hp
      · cases hp
      · cases hp
      rename_i proto hproto
      split at hp
      · cases hp
      rename_i addr s' hre
      obtain ⟨rfl, hl⟩ := readExact_eq.mp hre
      obtain ⟨a, rfl, rfl⟩ := exists_addresses fam addr hl
      clear hp
      have e13 := version_byte b13 hver hcmd
      have e14 := famByte_of_parse b14 a.family proto hfam hproto
      have hL : twoBytes (a.encode.length + ((be16 l0 l1).toNat - a.encode.length)) = [l0, l1] := by
        rw [← twoBytes_be16 l0 l1]
        congr 1
        omega
      have hin : prefixBytes ++ [b13, b14, l0, l1] ++ (a.encode ++ s')
          = encodeFixed proto a ((be16 l0 l1).toNat - a.encode.length) ++ s' := by
        unfold encodeFixed
        rw [hL, kindByte_eq, ← e13, ← e14]
        simp [prefixBytes]
      rw [hin, parseHeader_encode x tls proto a _ (by
        have := (be16 l0 l1).toNat_lt
        omega)] at hp0
      split at hp0
      · cases hp0
      · cases hp0
      rename_i sni s'' ht
      cases hp0
      obtain ⟨ts, rfl, hl2, hn, hok, hc, hm, rfl⟩ := parseTlvs_ok.mp ht
      refine ⟨ts, ⟨by omega, hok, by rw [hl2]; exact hc, hm⟩, rfl, ?_⟩
      rw [hin]
      simp only [encodeHeader, hl2, List.append_assoc]
    · rw [parseHeader_unsigned x tls input (fun b13 b14 l0 l1 s he => hs ⟨b13, b14, l0, l1, s, he⟩)]
        at hp
      cases hp
  · rintro ⟨ts, hacc, hsni, rfl⟩
    have h1 := haddr h.addresses
    have h2 := hacc.short
    have ht : parseTlvs x tls (encodeFixed h.protocol h.addresses (encodeTlvs ts).length)
        (encodeTlvs ts).length (encodeTlvs ts ++ rest) = .ok (authoritySent ts, rest) :=
      parseTlvs_ok.mpr ⟨ts, rfl, rfl, hacc.short, hacc.each, hacc.checksums, hacc.mode, rfl⟩
    rw [encodeHeader, List.append_assoc, parseHeader_encode x tls _ _ _ (by omega), ht]
    simp only
    obtain ⟨p, a, s⟩ := h
    simp only at hsni
    rw [hsni]

example : (match parseHeader exExt true (encodeHeader .stream exAddr exTlvs ++ [0x10, 0x0c]) with
    | .ok (some h, rest) => decide (h = ⟨.stream, exAddr, some [109, 113]⟩ ∧ rest = [0x10, 0x0c])
    | _ => false) = true := by decide +kernel

/-- C45: the parser takes an input for a health check exactly if it is the bare LOCAL header. -/
theorem C45_local (x : Ext) (tls : Bool) (input rest : Bytes) :
    parseHeader x tls input = .ok (none, rest) ↔ input = localHeader ++ rest := by
  constructor
  · intro hp
    by_cases hs : ∃ b13 b14 l0 l1 s, input = prefixBytes ++ [b13, b14, l0, l1] ++ s
    · obtain ⟨b13, b14, l0, l1, s, rfl⟩ := hs
      rw [parseHeader_signed] at hp
      split at hp
      · cases hp
      rename_i hver
      rw [Decidable.not_not] at hver
      split at hp
      · rename_i hcmd
        split at hp
        · cases hp
        rename_i hz
        have hz' : b14 = 0 ∧ (be16 l0 l1).toNat = 0 := by
          simpa using hz
        have e13 := local_byte b13 hver hcmd
        have e2 := twoBytes_be16 l0 l1
        rw [hz'.2] at e2
        simp only [twoBytes, List.cons.injEq, and_true] at e2
        cases hp
        rw [e13, hz'.1, ← e2.1, ← e2.2]
        rfl
      split at hp
      · cases hp
      split at hp
      · cases hp
      · cases hp
      split at hp
      · cases hp
      split at hp
      · cases hp
      · cases hp
      split at hp
      · cases hp
      split at hp
      · cases hp
      split at hp <;> cases hp
    · rw [parseHeader_unsigned x tls input (fun b13 b14 l0 l1 s he => hs ⟨b13, b14, l0, l1, s, he⟩)]
        at hp
      cases hp
  · rintro rfl
    have : localHeader ++ rest = prefixBytes ++ [0x20, 0, 0, 0] ++ rest := rfl
    rw [this, parseHeader_signed, if_neg (by decide), if_pos (by decide), if_neg (by decide)]

/-- The parser is a partial inverse of the wire format, so a header is never read as another one. -/
theorem C45_unambiguous (x : Ext) (tls : Bool) (p p' : Protocol) (a a' : Addresses)
    (ts ts' : List Tlv) (rest rest' : Bytes) (h : Acceptable x tls p a ts)
    (h' : Acceptable x tls p' a' ts')
    (he : encodeHeader p a ts ++ rest = encodeHeader p' a' ts' ++ rest') :
    p = p' ∧ a = a' ∧ authoritySent ts = authoritySent ts' ∧ rest = rest' := by
  have h1 := (C45_header x tls _ rest ⟨p, a, authoritySent ts⟩).mpr ⟨ts, h, rfl, rfl⟩
  have h2 := (C45_header x tls _ rest' ⟨p', a', authoritySent ts'⟩).mpr ⟨ts', h', rfl, rfl⟩
  rw [he, h2] at h1
  simp only [Out.ok.injEq, Prod.mk.injEq, Option.some.injEq, Header.mk.injEq] at h1
  obtain ⟨⟨e1, e2, e3⟩, e4⟩ := h1
  exact ⟨e1.symm, e2.symm, e3.symm, e4.symm⟩

/-- The address family is "unspecified", or the family is a known one with its addresses announced
and the transport protocol is "unspecified". -/
def Unspecified (b14 : UInt8) (len : Nat) : Prop :=
  b14.toNat / 16 = 0 ∨ (b14.toNat % 16 = 0 ∧ ((b14.toNat / 16 = 1 ∧ 12 ≤ len)
    ∨ (b14.toNat / 16 = 2 ∧ 36 ≤ len) ∨ (b14.toNat / 16 = 3 ∧ 216 ≤ len)))

theorem family_cases (b : UInt8) :
    (b.toNat / 16 = 0 ∧ parseFamily b = .panic)
    ∨ (b.toNat / 16 = 1 ∧ parseFamily b = .ok .ipv4)
    ∨ (b.toNat / 16 = 2 ∧ parseFamily b = .ok .ipv6)
    ∨ (b.toNat / 16 = 3 ∧ parseFamily b = .ok .unix)
    ∨ (4 ≤ b.toNat / 16 ∧ parseFamily b = .err) := by
  revert b
  apply forall_uint8
  decide +kernel

theorem protocol_cases (b : UInt8) :
    (b.toNat % 16 = 0 ∧ parseProtocol b = .panic)
    ∨ (b.toNat % 16 ≠ 0 ∧ (parseProtocol b = .ok .stream ∨ parseProtocol b = .ok .datagram
        ∨ parseProtocol b = .err)) := by
  revert b
  apply forall_uint8
  decide +kernel

/-- C45, the part "never a crash": the parser crashes exactly on inputs with the PROXY command
whose address family or transport protocol is "unspecified" (which the PROXY specification allows
and asks receivers to accept).  On all other inputs it does not crash. -/
theorem C45_no_crash_partial (x : Ext) (tls : Bool) (input : Bytes) :
    parseHeader x tls input = .panic ↔
      ∃ b14 l0 l1 s, input = prefixBytes ++ [0x21, b14, l0, l1] ++ s
        ∧ Unspecified b14 (l0.toNat * 256 + l1.toNat) := by
  constructor
  · intro hp
    by_cases hs : ∃ b13 b14 l0 l1 s, input = prefixBytes ++ [b13, b14, l0, l1] ++ s
    · obtain ⟨b13, b14, l0, l1, s, rfl⟩ := hs
      rw [parseHeader_signed] at hp
      split at hp
      · cases hp
      rename_i hver
      rw [Decidable.not_not] at hver
      split at hp
      · split at hp <;> cases hp
      split at hp
      · cases hp
      rename_i hcmd
      rw [Decidable.not_not] at hcmd
      have e13 := version_byte b13 hver hcmd
      subst e13
      refine ⟨b14, l0, l1, s, rfl, ?_⟩
      have hpc := protocol_cases b14
      have hrest : ∀ fam : Family, parseFamily b14 = .ok fam →
          fam.addrLen ≤ l0.toNat * 256 + l1.toNat ∧ b14.toNat % 16 = 0 := by
        intro fam hf
        rw [hf] at hp
        simp only at hp
        split at hp
        · cases hp
        rename_i hlen
        rw [be16_toNat] at hlen
        refine ⟨by omega, ?_⟩
        rcases hpc with h | ⟨_, h⟩
        · exact h.1
        · exfalso
          split at hp
          · cases hp
          · rename_i hpan
            rcases h with h | h | h <;> rw [h] at hpan <;> cases hpan
          split at hp
          · cases hp
          rename_i addr s' hre
          obtain ⟨rfl, hl⟩ := readExact_eq.mp hre
          obtain ⟨a, rfl, rfl⟩ := exists_addresses fam addr hl
          rw [parseAddresses_encode] at hp
          simp only at hp
          split at hp
          · cases hp
          · rename_i hpan
            exact parseTlvs_no_panic hpan
          · cases hp
      rcases family_cases b14 with h | h | h | h | h
      · exact Or.inl h.1
      · have := hrest _ h.2
        simp only [Family.addrLen] at this
        exact Or.inr ⟨this.2, Or.inl ⟨h.1, by omega⟩⟩
      · have := hrest _ h.2
        simp only [Family.addrLen] at this
        exact Or.inr ⟨this.2, Or.inr (Or.inl ⟨h.1, by omega⟩)⟩
      · have := hrest _ h.2
        simp only [Family.addrLen] at this
        exact Or.inr ⟨this.2, Or.inr (Or.inr ⟨h.1, by omega⟩)⟩
      · rw [h.2] at hp
        cases hp
    · rw [parseHeader_unsigned x tls input (fun b13 b14 l0 l1 s he => hs ⟨b13, b14, l0, l1, s, he⟩)]
        at hp
      cases hp
  · rintro ⟨b14, l0, l1, s, rfl, hu⟩
    rw [parseHeader_signed, if_neg (by decide), if_neg (by decide), if_neg (by decide)]
    rcases hu with h0 | ⟨hp0, hlen⟩
    · rcases family_cases b14 with h | h | h | h | h
      · rw [h.2]
      all_goals (exfalso; omega)
    · have hproto : parseProtocol b14 = .panic := by
        rcases protocol_cases b14 with h | h
        · exact h.2
        · exact absurd hp0 h.1
      have key : ∀ fam : Family, parseFamily b14 = .ok fam →
          fam.addrLen ≤ l0.toNat * 256 + l1.toNat →
          (match parseFamily b14 with
          | .err => (.err : Out (Option Header × Bytes))
          | .panic => .panic
          | .ok fam =>
            if (be16 l0 l1).toNat < fam.addrLen then .err
            else match parseProtocol b14 with
              | .err => .err
              | .panic => .panic
              | .ok proto =>
                match readExact fam.addrLen s with
                | none => .err
                | some (addr, s') =>
                  match parseAddresses addr fam with
                  | none => .panic
                  | some addresses =>
                    match parseTlvs x tls (prefixBytes ++ [0x21, b14, l0, l1] ++ addr)
                        ((be16 l0 l1).toNat - fam.addrLen) s' with
                    | .err => .err
                    | .panic => .panic
                    | .ok (sni, s'') => .ok (some ⟨proto, addresses, sni⟩, s'')) = .panic := by
        intro fam hf hl
        rw [hf]
        simp only
        rw [if_neg (by rw [be16_toNat]; omega), hproto]
      rcases family_cases b14 with h | h | h | h | h
      · rw [h.2]
      · exact key _ h.2 (by simp only [Family.addrLen]; omega)
      · exact key _ h.2 (by simp only [Family.addrLen]; omega)
      · exact key _ h.2 (by simp only [Family.addrLen]; omega)
      · exfalso; omega

/-- C45 is false of the code as stated: there is an input, sixteen bytes long and a legal PROXY
header, on which the parser crashes. -/
theorem C45_false : ∃ input, ∀ x tls, parseHeader x tls input = .panic :=
  ⟨prefixBytes ++ [0x21, 0, 0, 0] ++ [], fun x tls =>
    (C45_no_crash_partial x tls _).mpr ⟨0, 0, 0, [], rfl, Or.inl rfl⟩⟩

/-- C46: a header whose extension fields do not fit the TLS mode of the listener is refused:
with TLS terminated at the proxy if the SSL or the authority field is missing, otherwise if one of
them is there. -/
theorem C46_refused (x : Ext) (tls : Bool) (p : Protocol) (a : Addresses) (ts : List Tlv)
    (rest : Bytes) (hlen : (encodeTlvs ts).length ≤ 65000) (hmode : ¬ ModeOk tls ts) :
    parseHeader x tls (encodeHeader p a ts ++ rest) = .err := by
  have haddr : a.encode.length ≤ 216 := by
    rw [encode_addrLen]
    cases a <;> simp [Addresses.family, Family.addrLen]
  rw [encodeHeader, List.append_assoc, parseHeader_encode x tls _ _ _ (by omega)]
  cases ht : parseTlvs x tls (encodeFixed p a (encodeTlvs ts).length) (encodeTlvs ts).length
      (encodeTlvs ts ++ rest) with
  | err => rfl
  | panic => exact absurd ht parseTlvs_no_panic
  | ok r =>
    exfalso
    obtain ⟨sni, s''⟩ := r
    obtain ⟨ts', he, hl, hn, _, _, hm, _⟩ := parseTlvs_ok.mp ht
    obtain ⟨he1, _⟩ := List.append_inj he hl.symm
    have : ts = ts' := encodeTlvs_inj ts ts'
      (fun t h => by have := tlv_bound hlen t h; omega)
      (fun t h => by have := tlv_bound (n := 256) (by omega) t h; omega) he1
    exact hmode (this ▸ hm)

example : ¬ ModeOk false exTlvs ∧ ¬ ModeOk true [⟨0x02, [109, 113]⟩]
    ∧ (encodeTlvs exTlvs).length ≤ 65000 := by
  refine ⟨?_, ?_, by decide +kernel⟩
  · rw [modeOk_iff]; decide +kernel
  · rw [modeOk_iff]; decide +kernel

/-- C46: what a listener with TLS terminated at the proxy accepts carries an SSL field and an
authority, and the authority reported is one that was sent. -/
theorem C46_tls (x : Ext) (input rest : Bytes) (h : Header)
    (hp : parseHeader x true input = .ok (some h, rest)) :
    ∃ ts, input = encodeHeader h.protocol h.addresses ts ++ rest
      ∧ (∃ t ∈ ts, t.typ = 0x20 ∧ (t.value.drop 1).take 4 = [0, 0, 0, 0])
      ∧ (∃ t ∈ ts, t.typ = 0x02 ∧ h.sni = some t.value ∧ t.value ≠ [])
      ∧ h.sni = authoritySent ts := by
  obtain ⟨ts, hacc, hsni, hin⟩ := (C45_header x true input rest h).mp hp
  obtain ⟨⟨t, ht, h20⟩, ⟨u, hu, h2⟩⟩ := (by simpa [ModeOk] using hacc.mode :
    (∃ t ∈ ts, t.typ = 0x20) ∧ (∃ t ∈ ts, t.typ = 0x02))
  refine ⟨ts, hin, ⟨t, ht, h20, ((hacc.each t ht).2.2 h20).2⟩, ?_, hsni⟩
  rw [hsni]
  unfold authoritySent
  have hne : ts.filter (fun t => t.typ == 0x02) ≠ [] := by
    intro h0
    have := List.mem_filter (p := fun t : Tlv => t.typ == 0x02).mpr ⟨hu, by simp [h2]⟩
    rw [h0] at this
    cases this
  have hmem := List.getLast_mem hne
  rw [List.mem_filter] at hmem
  refine ⟨_, hmem.1, by simpa using hmem.2, ?_, ((hacc.each _ hmem.1).1 (by simpa using hmem.2)).1⟩
  rw [List.getLast?_eq_some_getLast hne]
  rfl

/-- C46: what a listener without TLS termination accepts carries neither field, and no authority is
reported. -/
theorem C46_plain (x : Ext) (input rest : Bytes) (h : Header)
    (hp : parseHeader x false input = .ok (some h, rest)) :
    h.sni = none ∧ ∃ ts, input = encodeHeader h.protocol h.addresses ts ++ rest
      ∧ ∀ t ∈ ts, t.typ ≠ 0x20 ∧ t.typ ≠ 0x02 := by
  obtain ⟨ts, hacc, hsni, hin⟩ := (C45_header x false input rest h).mp hp
  have hm : ∀ t ∈ ts, t.typ ≠ 0x20 ∧ t.typ ≠ 0x02 := by simpa [ModeOk] using hacc.mode
  refine ⟨?_, ts, hin, hm⟩
  rw [hsni]
  unfold authoritySent
  rw [List.filter_eq_nil_iff.mpr]
  · rfl
  · intro t ht
    simpa using (hm t ht).2

example : (match parseHeader exExt false (encodeHeader .stream exAddr [] ++ [0x10]) with
    | .ok (some h, rest) => decide (h = ⟨.stream, exAddr, none⟩ ∧ rest = [0x10])
    | _ => false) = true := by decide +kernel

end Akasa.Proxy
