import Verif.Model.Types
/-!
# PROXY protocol v2 header parser

Models `server/proxy.rs`.  The reader is the list of bytes the peer sends on the connection before
closing it: `read_exact` fails if there are not enough of them.  What is left of the list after
parsing is what the TLS / MQTT layer reads next.

External: `crc32c` (the checksum function of the crate of that name, with
`crc32c_append (crc32c a) b = crc32c (a ++ b)`) and `String::from_utf8` (a predicate telling which
byte sequences are accepted; a Rust `String` is represented by its bytes).
-/

namespace Akasa.Proxy

/-- Outcome of a fallible function that may also panic. -/
inductive Out (α : Type) where
  | ok (a : α)
  | err
  | panic
deriving DecidableEq, Repr

/-- `server/proxy.rs:50-56`. -/
inductive Protocol where
  | stream
  | datagram
deriving DecidableEq, Repr

/-- `server/proxy.rs:42-47`. -/
inductive Family where
  | ipv4
  | ipv6
  | unix
deriving DecidableEq, Repr

/-- `server/proxy.rs:59-77`.  An IP address is its bytes in network order. -/
inductive Addresses where
  | ipv4 (src : Vector UInt8 4) (srcPort : UInt16) (dst : Vector UInt8 4) (dstPort : UInt16)
  | ipv6 (src : Vector UInt8 16) (srcPort : UInt16) (dst : Vector UInt8 16) (dstPort : UInt16)
  | unix (src dst : Vector UInt8 108)
deriving DecidableEq

/-- `server/proxy.rs:32-39`. -/
structure Header where
  protocol : Protocol
  addresses : Addresses
  sni : Option Bytes
deriving DecidableEq

/-- `server/proxy.rs:17` `b"\r\n\r\n\0\r\nQUIT\n"`. -/
def prefixBytes : Bytes := [13, 10, 13, 10, 0, 13, 10, 81, 85, 73, 84, 10]

/-- `server/proxy.rs:19-24, 139-143`. -/
def Family.addrLen : Family → Nat
  | .ipv4 => (4 + 2) * 2
  | .ipv6 => (16 + 2) * 2
  | .unix => 108 * 2

/-- `read_exact` of `n` bytes (tokio): the bytes read and the rest, `none` for an early end. -/
def readExact (n : Nat) (s : Bytes) : Option (Bytes × Bytes) :=
  if n ≤ s.length then some (s.take n, s.drop n) else none

/-- `u16::from_be_bytes`. -/
def be16 (a b : UInt8) : UInt16 := UInt16.ofNat (a.toNat * 256 + b.toNat)

/-- `u32::from_be_bytes`. -/
def be32 (a b c d : UInt8) : UInt32 :=
  UInt32.ofNat (((a.toNat * 256 + b.toNat) * 256 + c.toNat) * 256 + d.toNat)

/-- `bytes[off..off + len]`; `none` is the out-of-range panic. -/
def slice (bytes : Bytes) (off len : Nat) : Option Bytes :=
  if off + len ≤ bytes.length then some ((bytes.drop off).take len) else none

/-- `copy_from_slice` into a fixed array; `none` is the panic for different lengths. -/
def toArr (n : Nat) (l : Bytes) : Option (Vector UInt8 n) :=
  if h : l.length = n then some ⟨l.toArray, by simp [h]⟩ else none

/-- A port number, two bytes at `off`; `none` is the out-of-range panic. -/
def port (bytes : Bytes) (off : Nat) : Option UInt16 :=
  match slice bytes off 2 with
  | some [a, b] => some (be16 a b)
  | _ => none

/-- `server/proxy.rs:184-228` `parse_addresses`; `none` is a panic.  Indexing byte by byte into the
slice is modelled by taking the sub-slice. -/
def parseAddresses (bytes : Bytes) : Family → Option Addresses
  | .ipv4 => do
    let src ← toArr 4 (← slice bytes 0 4)
    let dst ← toArr 4 (← slice bytes 4 4)
    let sp ← port bytes 8
    let dp ← port bytes 10
    pure (.ipv4 src sp dst dp)
  | .ipv6 => do
    let src ← toArr 16 (← slice bytes 0 16)
    let dst ← toArr 16 (← slice bytes 16 16)
    let sp ← port bytes 32
    let dp ← port bytes 34
    pure (.ipv6 src sp dst dp)
  | .unix => do
    let src ← toArr 108 (← slice bytes 0 108)
    let dst ← toArr 108 (bytes.drop 108)
    pure (.unix src dst)

/-- The mutable variables of the loop in `parse_tlvs` (`server/proxy.rs:240-253`). -/
structure TlvState where
  ssl : Bool
  authority : Bool
  sni : Option Bytes
deriving DecidableEq

/-- The external functions the parser calls. -/
structure Ext where
  crc : Bytes → UInt32
  utf8 : Bytes → Bool

/-- `server/proxy.rs:268-332` the body of the loop for one TLV whose value starts at `off`.
Returns the new state and the possibly changed TLV bytes (`tlv_bytes[..] = 0` in the checksum
case).  `head` is `buffer[..16 + address_length]`. -/
def tlvBody (x : Ext) (head tlv : Bytes) (typ : UInt8) (off len : Nat) (st : TlvState) :
    Out (TlvState × Bytes) :=
  if typ = 0x02 then
    if len = 0 then .err
    else match slice tlv off len with
      | none => .panic
      | some v => if x.utf8 v then .ok ({ st with sni := some v, authority := true }, tlv) else .err
  else if typ = 0x03 then
    if len ≠ 4 then .err
    else match slice tlv off 4 with
      | some [a, b, c, d] =>
        let tlv' := tlv.take off ++ [0, 0, 0, 0] ++ tlv.drop (off + 4)
        if be32 a b c d ≠ x.crc (head ++ tlv') then .err else .ok (st, tlv')
      | _ => .panic
  else if typ = 0x20 then
    if len < 5 then .err
    else match slice tlv (off + 1) 4 with
      | none => .panic
      | some v => if v ≠ [0, 0, 0, 0] then .err else .ok ({ st with ssl := true }, tlv)
  else .ok (st, tlv)

/-- `server/proxy.rs:254-334` `while offset < remaining_len`, together with the comparison
`offset != remaining_len` after it (`336-339`).  The loop runs at most once per byte; `fuel` starts
at the number of bytes, and running out of it (which the proofs show cannot happen) is reported as
a panic. -/
def tlvLoop (x : Ext) (head : Bytes) (remaining : Nat) :
    (fuel : Nat) → (tlv : Bytes) → (offset : Nat) → TlvState → Out TlvState
  | 0, _, offset, st =>
    if offset < remaining then .panic else if offset ≠ remaining then .err else .ok st
  | fuel + 1, tlv, offset, st =>
    if offset < remaining then
      let rest := remaining - offset
      if rest < 3 then .err
      else match slice tlv offset 3 with
        | some [typ, l0, l1] =>
          let len := (be16 l0 l1).toNat
          if rest < 3 + len then .err
          else match tlvBody x head tlv typ (offset + 3) len st with
            | .ok (st', tlv') => tlvLoop x head remaining fuel tlv' (offset + 3 + len) st'
            | .err => .err
            | .panic => .panic
        | _ => .panic
    else if offset ≠ remaining then .err else .ok st

/-- `server/proxy.rs:233-361` `parse_tlvs`: the authority and the unread rest of the stream. -/
def parseTlvs (x : Ext) (tls : Bool) (head : Bytes) (remaining : Nat) (s : Bytes) :
    Out (Option Bytes × Bytes) :=
  if remaining > 256 then .err
  else match readExact remaining s with
    | none => .err
    | some (tlv, s') =>
      match tlvLoop x head remaining remaining tlv 0 ⟨false, false, none⟩ with
      | .err => .err
      | .panic => .panic
      | .ok st =>
        if tls then
          if !st.ssl then .err else if !st.authority then .err else .ok (st.sni, s')
        else
          if st.ssl then .err else if st.authority then .err else .ok (st.sni, s')

/-- `server/proxy.rs:125-138`: `Out.panic` is the `unreachable!()`. -/
def parseFamily (b : UInt8) : Out Family :=
  if b &&& 0xF0 = 0x00 then .panic
  else if b &&& 0xF0 = 0x10 then .ok .ipv4
  else if b &&& 0xF0 = 0x20 then .ok .ipv6
  else if b &&& 0xF0 = 0x30 then .ok .unix
  else .err

/-- `server/proxy.rs:153-162`: `Out.panic` is the `unreachable!()`. -/
def parseProtocol (b : UInt8) : Out Protocol :=
  if b &&& 0x0F = 0x00 then .panic
  else if b &&& 0x0F = 0x01 then .ok .stream
  else if b &&& 0x0F = 0x02 then .ok .datagram
  else .err

/-- `server/proxy.rs:81-182` `parse_header`: `none` for the LOCAL command, and the rest of the
stream.  The 256-byte `buffer` is represented by the 16 + `address_length` bytes read into it. -/
def parseHeader (x : Ext) (tls : Bool) (input : Bytes) : Out (Option Header × Bytes) :=
  match readExact 16 input with
  | none => .err
  | some (pre, s) =>
    if pre.take 12 ≠ prefixBytes then .err
    else match pre.drop 12 with
      | [b13, b14, l0, l1] =>
        let extra := (be16 l0 l1).toNat
        if b13 &&& 0xF0 ≠ 0x20 then .err
        else if b13 &&& 0x0F = 0x00 then
          if !(b14 == 0 && extra == 0) then .err else .ok (none, s)
        else if b13 &&& 0x0F ≠ 0x01 then .err
        else match parseFamily b14 with
          | .err => .err
          | .panic => .panic
          | .ok fam =>
            if extra < fam.addrLen then .err
            else match parseProtocol b14 with
              | .err => .err
              | .panic => .panic
              | .ok proto =>
                match readExact fam.addrLen s with
                | none => .err
                | some (addr, s') =>
                  match parseAddresses addr fam with
                  | none => .panic
                  | some addresses =>
                    match parseTlvs x tls (pre ++ addr) (extra - fam.addrLen) s' with
                    | .err => .err
                    | .panic => .panic
                    | .ok (sni, s'') => .ok (some ⟨proto, addresses, sni⟩, s'')
      | _ => .panic

end Akasa.Proxy
