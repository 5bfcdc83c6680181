import Verif.Model.Proxy
/-!
# What a PROXY v2 header looks like on the wire

Vocabulary for C45 and C46, written from the protocol description: how a header is laid out in
bytes, which extension fields (TLVs) are acceptable, and how the checksum field is computed.
-/

namespace Akasa.Proxy

/-- The two bytes of a 16-bit number, most significant first. -/
def twoBytes (n : Nat) : Bytes := [UInt8.ofNat (n / 256), UInt8.ofNat (n % 256)]

/-- The four bytes of a 32-bit number, most significant first. -/
def fourBytes (n : Nat) : Bytes :=
  [UInt8.ofNat (n / 16777216), UInt8.ofNat (n / 65536 % 256), UInt8.ofNat (n / 256 % 256),
   UInt8.ofNat (n % 256)]

/-- An extension field: type and value. -/
structure Tlv where
  typ : UInt8
  value : Bytes
deriving DecidableEq

/-- Type, length, value. -/
def Tlv.encode (t : Tlv) : Bytes := t.typ :: twoBytes t.value.length ++ t.value

/-- The extension fields one after the other. -/
def encodeTlvs (ts : List Tlv) : Bytes := ts.flatMap Tlv.encode

/-- Addresses, then ports. -/
def Addresses.encode : Addresses → Bytes
  | .ipv4 src sp dst dp => src.toList ++ dst.toList ++ twoBytes sp.toNat ++ twoBytes dp.toNat
  | .ipv6 src sp dst dp => src.toList ++ dst.toList ++ twoBytes sp.toNat ++ twoBytes dp.toNat
  | .unix src dst => src.toList ++ dst.toList

/-- High half of byte 14: `1` IPv4, `2` IPv6, `3` Unix. Low half: `1` stream, `2` datagram. -/
def kindByte : Addresses → Protocol → UInt8
  | .ipv4 .., .stream => 0x11
  | .ipv4 .., .datagram => 0x12
  | .ipv6 .., .stream => 0x21
  | .ipv6 .., .datagram => 0x22
  | .unix .., .stream => 0x31
  | .unix .., .datagram => 0x32

/-- Signature, version 2 / command PROXY, family / protocol, length, addresses. -/
def encodeFixed (p : Protocol) (a : Addresses) (tlvLen : Nat) : Bytes :=
  [13, 10, 13, 10, 0, 13, 10, 81, 85, 73, 84, 10] ++ [0x21, kindByte a p]
    ++ twoBytes (a.encode.length + tlvLen) ++ a.encode

/-- A whole PROXY header. -/
def encodeHeader (p : Protocol) (a : Addresses) (ts : List Tlv) : Bytes :=
  encodeFixed p a (encodeTlvs ts).length ++ encodeTlvs ts

/-- The header of a health check: command LOCAL, nothing else. -/
def localHeader : Bytes :=
  [13, 10, 13, 10, 0, 13, 10, 81, 85, 73, 84, 10] ++ [0x20, 0, 0, 0]

/-- The checksum field with its value replaced by zeros; any other field unchanged. -/
def Tlv.zeroed (t : Tlv) : Tlv := if t.typ = 0x03 then { t with value := [0, 0, 0, 0] } else t

/-- Each field on its own is acceptable: an authority (2) is a non-empty UTF-8 string, a checksum
(3) has four bytes, an SSL field (0x20) has at least the client byte and the four verify bytes,
which are zero (= verified); fields of other types are unrestricted. -/
def Tlv.Ok (utf8 : Bytes → Bool) (t : Tlv) : Prop :=
  (t.typ = 0x02 → t.value ≠ [] ∧ utf8 t.value = true)
  ∧ (t.typ = 0x03 → t.value.length = 4)
  ∧ (t.typ = 0x20 → 5 ≤ t.value.length ∧ (t.value.drop 1).take 4 = [0, 0, 0, 0])

/-- Every checksum field holds the checksum of the whole header in which this field (and any
checksum field before it) is replaced by zeros. -/
def ChecksumsOk (crc : Bytes → UInt32) (fixed : Bytes) (ts : List Tlv) : Prop :=
  ∀ before t after, ts = before ++ t :: after → t.typ = 0x03 →
    t.value = fourBytes
      (crc (fixed ++ encodeTlvs (before.map Tlv.zeroed ++ t.zeroed :: after))).toNat

/-- The TLS mode of the listener: with TLS terminated at the proxy both an SSL and an authority
field must be there, otherwise neither may be. -/
def ModeOk (tls : Bool) (ts : List Tlv) : Prop :=
  if tls then (∃ t ∈ ts, t.typ = 0x20) ∧ (∃ t ∈ ts, t.typ = 0x02)
  else ∀ t ∈ ts, t.typ ≠ 0x20 ∧ t.typ ≠ 0x02

/-- The authority sent (the last one, should there be several). -/
def authoritySent (ts : List Tlv) : Option Bytes :=
  (ts.filter (fun t => t.typ == 0x02)).getLast?.map Tlv.value

/-- The list of extension fields is acceptable for a listener. -/
structure Acceptable (x : Ext) (tls : Bool) (p : Protocol) (a : Addresses) (ts : List Tlv) :
    Prop where
  short : (encodeTlvs ts).length ≤ 256
  each : ∀ t ∈ ts, t.Ok x.utf8
  checksums : ChecksumsOk x.crc (encodeFixed p a (encodeTlvs ts).length) ts
  mode : ModeOk tls ts

end Akasa.Proxy
