import Verif.Wire

/-!
# Model of `/repo/rmc_wireshark_plugin.c`: the Wireshark dissector of the protocol

A captured buffer (`tvbuff_t`) is the list of its bytes. What the user sees is a state: the values added to the protocol tree, in
order, the pieces of the info column and the TCP ports handed to this dissector. Looking at bytes beyond the captured ones raises
Wireshark's bounds exception, which ends the dissection with what is shown so far (`.error`).

Simplifications: subtrees and the positions highlighted are left out (only values are kept); a value is kept as a number or bytes,
not as text; Wireshark's `tcp_dissect_pdus` is modelled by its documentation (desegmentation possible, exceptions of the
callback are caught); `hex_dump` is not called; registration (plugin_register_rmc) has no modelled effect beyond the handlers.
-/

namespace Rmc
namespace Dissect

/-- A value shown in the protocol tree (the `hf_rmc_...` fields). -/
inductive Item where
  | command (c : UInt8)
  | packetId (n : Nat)
  | nodeId (n : Nat)
  | payloadLen (n : Nat)
  | controlIp (n : Nat)
  | controlPort (n : Nat)
  | packetPayload (xs : List UInt8)
  | ackFirst (n : Nat)
  | ackLast (n : Nat)
  | ctlLen (n : Nat)
  | ctlPayload (xs : List UInt8)
  deriving DecidableEq, Repr

/-- A piece of text in the info column, by its format string. -/
inductive Piece where
  | announce (nodeId : Nat) (ip : Option Nat) (port len : Nat)        -- 200-203; `ip = none`: the source address, with a star
  | data (nodeId : Nat) (ip : Option Nat) (port len pid : Nat)        -- 220-223
  | subAck (first last : Nat)                                          -- 278-281
  | ack (first last : Nat)                                             -- 283-286
  | ctlMsg (len : Nat)                                                 -- 299-302
  | ctlNsg (len : Nat)                                                 -- 304-307
  | resend (n : Nat)                                                   -- 326
  deriving DecidableEq, Repr

/-- What the user sees, and the TCP ports that have a dissector. -/
structure View where
  items : List Item
  col : List Piece
  ports : List Nat
  unknown : List UInt8          -- commands printed as unknown (312)
  deriving DecidableEq, Repr

def View.add (s : View) (x : Item) : View := { s with items := s.items ++ [x] }

/-- tvb_get_...: `n` bytes at `off`, or the bounds exception. -/
def get (s : View) (tvb : List UInt8) (off n : Nat) : Except View (List UInt8) :=
  if off + n ≤ tvb.length then .ok ((tvb.drop off).take n) else .error s

/-- rmc_wireshark_plugin.c:77-100 `dissect_rmc_ack_interval`: bytes consumed, first and last id (unchanged if not all is there). -/
def ackInterval (s : View) (tvb : List UInt8) (off first last : Nat) : Except View (View × Nat × Nat × Nat) :=
  if tvb.length - off < 16 then .ok (s, 0, first, last)
  else do
    let f ← get s tvb off 8
    let s := s.add (.ackFirst (leDec f))
    let l ← get s tvb (off + 8) 8
    let s := s.add (.ackLast (leDec l))
    return (s, 16, leDec f, leDec l)

/-- rmc_wireshark_plugin.c:102-131 `dissect_rmc_ctl_msg`: bytes consumed and payload length (0 if not all is there). -/
def ctlMsg (s : View) (tvb : List UInt8) (off : Nat) : Except View (View × Nat × Nat) :=
  if tvb.length - off < 2 then .ok (s, 0, 0)
  else do
    let l ← get s tvb off 2
    let n := leDec l
    if tvb.length - (off + 2) < n then return (s, 0, 0)
    let s := s.add (.ctlLen n)
    let p ← get s tvb (off + 2) n
    let s := s.add (.ctlPayload p)
    return (s, 2 + n, n)

/-- rmc_wireshark_plugin.c:134-137 `get_rmc_packet_len`. -/
def packetLen (s : View) (tvb : List UInt8) (off : Nat) : Except View Nat := do
  return leDec (← get s tvb (off + 13) 2) + 21

/-- rmc_wireshark_plugin.c:140-226 `dissect_packet_offset`. -/
def packetOffset (s : View) (tvb : List UInt8) (off : Nat) : Except View (View × Nat) := do
  let pid ← get s tvb off 8
  let s := s.add (.packetId (leDec pid))
  let off := off + 8
  let nid ← get s tvb off 4
  let s := s.add (.nodeId (leDec nid))
  let off := off + 4
  let len ← get s tvb off 2
  let s := s.add (.payloadLen (leDec len))
  let off := off + 2
  let ip ← get s tvb off 4
  let shown := if leDec ip = 0 then none else some (leDec ip)
  let s := s.add (.controlIp (leDec ip))
  let off := off + 4
  let port ← get s tvb off 2
  let s := s.add (.controlPort (leDec port))
  let off := off + 2
  let pay ← get s tvb off (leDec len)
  let s := s.add (.packetPayload pay)
  let s := if leDec pid = 0 then
      { s with col := [.announce (leDec nid) shown (leDec port) (leDec len)],
               ports := if leDec port ∈ s.ports then s.ports else s.ports ++ [leDec port] }
    else { s with col := [.data (leDec nid) shown (leDec port) (leDec len) (leDec pid)] }
  return (s, off)

/-- rmc_wireshark_plugin.c:228-232 `dissect_packet_multicast`. -/
def multicast (s : View) (tvb : List UInt8) : Except View (View × Nat) := packetOffset s tvb 0

/-- rmc_wireshark_plugin.c:234-241 `dissect_rmc_packet`, as called by `tcp_dissect_pdus`, which catches exceptions: what is shown, and
the count of resent packets. -/
def rmcPacket (s : View) (tvb : List UInt8) (count : Nat) : View × Nat :=
  match get s tvb 0 1 with
  | .error s => (s, count)
  | .ok c =>
    match packetOffset (s.add (.command (c.headD 0))) tvb 1 with
    | .error s => (s, count)
    | .ok r => (r.1, count + 1)

/-- Wireshark's `tcp_dissect_pdus(tvb, ..., fixed_len = 15, get_rmc_packet_len, dissect_rmc_packet)` from `off` on: what is shown, the count, and,
if the rest of a message is missing, where it begins (the offset of desegmentation). -/
def pdus : Nat → View → List UInt8 → Nat → Nat → View × Nat × Option Nat
  | 0, s, _, _, count => (s, count, none)
  | fuel + 1, s, tvb, off, count =>
    if tvb.length - off = 0 then (s, count, none)
    else if tvb.length - off < 15 then (s, count, some off)
    else
      match packetLen s tvb off with
      | .error s => (s, count, none)
      | .ok n =>
        if tvb.length - off < n then (s, count, some off)
        else
          let r := rmcPacket s ((tvb.drop off).take n) count
          pdus fuel r.1 tvb (off + n) r.2

/-- Result of `dissect_rmc_tcp`: what is shown, the value returned, and where desegmentation was asked for. -/
structure Result where
  view : View
  ret : Nat
  deseg : Option Nat
  deriving DecidableEq, Repr

/-- rmc_wireshark_plugin.c:267-331: the loop of `dissect_rmc_tcp` and what follows it. `res` is the variable of that name, which the case of
a packet leaves as it is. -/
def tcpLoop : Nat → View → List UInt8 → Nat → Nat → Nat → Nat → Nat → Option Nat → Except View Result
  | 0, s, _, _, _, _, _, _, _ => .error s
  | fuel + 1, s, tvb, off, first, last, res, count, deseg =>
    if tvb.length - off < 1 then .ok ⟨s, off, deseg⟩                                          -- 268-269
    else do
      let c := (← get s tvb off 1).headD 0
      let fin (s : View) (count : Nat) (deseg : Option Nat) : Result :=                          -- 325-329
        ⟨if count ≠ 0 then { s with col := [.resend count] } else s, tvb.length, deseg⟩
      if c = CMD_ACK_INTERVAL then
        let s := s.add (.command c)
        let r ← ackInterval s tvb (off + 1) first last
        let s := r.1
        let s := { s with col := if s.col = [] then [.subAck r.2.2.1 r.2.2.2] else s.col ++ [.ack r.2.2.1 r.2.2.2] }
        if r.2.1 = 0 then return fin s count deseg
        tcpLoop fuel s tvb (off + 1 + r.2.1) r.2.2.1 r.2.2.2 r.2.1 count deseg
      else if c = CMD_PACKET then
        let r := pdus (tvb.length + 1) s tvb 0 count
        if res = 0 then return fin r.1 r.2.1 r.2.2
        tcpLoop fuel r.1 tvb (off + 1 + res) first last res r.2.1 r.2.2
      else if c = CMD_CONTROL_MESSAGE then
        let s := s.add (.command c)
        let r ← ctlMsg s tvb (off + 1)
        let s := r.1
        let s := { s with col := if s.col = [] then [.ctlMsg r.2.2] else s.col ++ [.ctlNsg r.2.2] }
        if r.2.1 = 0 then return fin s count deseg
        tcpLoop fuel s tvb (off + 1 + r.2.1) first last r.2.1 count deseg
      else return ⟨{ s with unknown := s.unknown ++ [c] }, 0, deseg⟩                             -- 311-313

/-- rmc_wireshark_plugin.c:244-331 `dissect_rmc_tcp`. -/
def tcp (s : View) (tvb : List UInt8) : Except View Result :=
  tcpLoop (tvb.length + 1) { s with col := [] } tvb 0 0 0 0 0 none

end Dissect
end Rmc
