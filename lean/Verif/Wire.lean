import Verif.Basic

/-!
# Wire formats: `/repo/rmc_protocol.h`

The C code sends the packed structs as raw memory (`memcpy`, `sendmsg`, pointer casts). On the
little-endian hosts the library runs on, this is the little-endian encoding of the fields in
declaration order. Simplification: little-endian byte order is assumed (the C code does not convert);
field values are `Nat`s, the C types bound them (`Valid`).
-/

namespace Rmc

/-- The memory image of an unsigned integer of `n` bytes, little endian. -/
def leEnc : Nat → Nat → List UInt8
  | 0, _ => []
  | n + 1, v => UInt8.ofNat (v % 256) :: leEnc n (v / 256)

/-- The value of a little-endian memory image. -/
def leDec : List UInt8 → Nat
  | [] => 0
  | x :: xs => x.toNat + 256 * leDec xs

/-- rmc_protocol.h:17-25 `packet_header_t`, 20 bytes packed. -/
structure PacketHeader where
  pid : Nat
  nodeId : Nat
  payloadLen : Nat
  listenIp : Nat
  listenPort : Nat
  deriving DecidableEq, Repr

/-- rmc_protocol.h:28-32 `cmd_ack_interval_t`, 16 bytes packed. -/
structure AckInterval where
  first : Nat
  last : Nat
  deriving DecidableEq, Repr

/-- `sizeof(packet_header_t)` -/
def HDR_LEN : Nat := 20
/-- `sizeof(cmd_ack_interval_t)` -/
def ACK_LEN : Nat := 16
/-- `sizeof(cmd_control_message_t)` (the flexible array member has size 0) -/
def CTL_LEN : Nat := 2

/-- rmc_protocol.h:12-14 command bytes. -/
def CMD_PACKET : UInt8 := 1
def CMD_ACK_INTERVAL : UInt8 := 2
def CMD_CONTROL_MESSAGE : UInt8 := 3

namespace PacketHeader
/-- The fields fit their C types. -/
structure Valid (h : PacketHeader) : Prop where
  pid : h.pid < U64
  nodeId : h.nodeId < U32
  payloadLen : h.payloadLen < 65536
  listenIp : h.listenIp < U32
  listenPort : h.listenPort < 65536

/-- Memory image of `packet_header_t` (rmc_protocol.h:17-25). -/
def enc (h : PacketHeader) : List UInt8 :=
  leEnc 8 h.pid ++ (leEnc 4 h.nodeId ++ (leEnc 2 h.payloadLen ++ (leEnc 4 h.listenIp ++ leEnc 2 h.listenPort)))

/-- `(packet_header_t*) data` (rmc_sub_read.c:140, 274): the header at the front of some bytes. -/
def dec (xs : List UInt8) : PacketHeader where
  pid := leDec (xs.take 8)
  nodeId := leDec ((xs.drop 8).take 4)
  payloadLen := leDec ((xs.drop 12).take 2)
  listenIp := leDec ((xs.drop 14).take 4)
  listenPort := leDec ((xs.drop 18).take 2)
end PacketHeader

namespace AckInterval
/-- The fields fit their C types. -/
structure Valid (a : AckInterval) : Prop where
  first : a.first < U64
  last : a.last < U64
/-- Memory image of `cmd_ack_interval_t` (rmc_protocol.h:28-32). -/
def enc (a : AckInterval) : List UInt8 := leEnc 8 a.first ++ leEnc 8 a.last
/-- rmc_pub_read.c:32: the struct read from the buffer. -/
def dec (xs : List UInt8) : AckInterval := ⟨leDec (xs.take 8), leDec ((xs.drop 8).take 8)⟩
end AckInterval

/-- Memory image of `cmd_control_message_t` (rmc_protocol.h:34-38), the 16-bit payload length. -/
def ctlEnc (len : Nat) : List UInt8 := leEnc 2 len
/-- rmc_pub_read.c:56: the struct read from the buffer. -/
def ctlDec (xs : List UInt8) : Nat := leDec (xs.take 2)

@[simp] theorem length_leEnc (n v : Nat) : (leEnc n v).length = n := by
  induction n generalizing v with
  | zero => rfl
  | succ n ih => simp [leEnc, ih]

theorem leDec_leEnc (n v : Nat) (h : v < 256 ^ n) : leDec (leEnc n v) = v := by
  induction n generalizing v with
  | zero => simp at h; subst h; rfl
  | succ n ih =>
    have h2 : v / 256 < 256 ^ n := by
      rw [Nat.div_lt_iff_lt_mul (by omega)]; rw [Nat.pow_succ] at h; exact h
    simp only [leEnc, leDec, ih _ h2, UInt8.toNat_ofNat']
    omega

theorem leDec_lt (xs : List UInt8) : leDec xs < 256 ^ xs.length := by
  induction xs with
  | nil => simp [leDec]
  | cons x xs ih =>
    have := x.toNat_lt
    simp only [leDec, List.length_cons, Nat.pow_succ]
    omega

theorem leEnc_leDec (xs : List UInt8) : leEnc xs.length (leDec xs) = xs := by
  induction xs with
  | nil => rfl
  | cons x xs ih =>
    have hx := x.toNat_lt
    have h1 : (x.toNat + 256 * leDec xs) % 256 = x.toNat := by omega
    have h2 : (x.toNat + 256 * leDec xs) / 256 = leDec xs := by omega
    simp only [leDec, List.length_cons, leEnc, h1, h2, ih]
    simp

@[simp] theorem PacketHeader.length_enc (h : PacketHeader) : h.enc.length = HDR_LEN := by
  simp [PacketHeader.enc, HDR_LEN]
@[simp] theorem AckInterval.length_enc (a : AckInterval) : a.enc.length = ACK_LEN := by
  simp [AckInterval.enc, ACK_LEN]
@[simp] theorem length_ctlEnc (n : Nat) : (ctlEnc n).length = CTL_LEN := by simp [ctlEnc, CTL_LEN]

theorem take_of_len {xs ys : List UInt8} {n : Nat} (h : xs.length = n) : (xs ++ ys).take n = xs := by
  subst h; exact List.take_left
theorem drop_of_len {xs ys : List UInt8} {n : Nat} (h : xs.length = n) : (xs ++ ys).drop n = ys := by
  subst h; exact List.drop_left

theorem PacketHeader.dec_enc {h : PacketHeader} (hv : h.Valid) (rest : List UInt8) :
    PacketHeader.dec (h.enc ++ rest) = h := by
  obtain ⟨h1, h2, h3, h4, h5⟩ := hv
  obtain ⟨pid, nid, pl, ip, port⟩ := h
  simp only at *
  unfold PacketHeader.dec PacketHeader.enc
  simp only [List.append_assoc]
  have d8 : ∀ r, List.drop 8 (leEnc 8 pid ++ r) = r := fun r => drop_of_len (by simp)
  have d12 : ∀ r, List.drop 12 (leEnc 8 pid ++ (leEnc 4 nid ++ r)) = r := by
    intro r; rw [show (12 : Nat) = 8 + 4 from rfl, ← List.drop_drop, d8]; exact drop_of_len (by simp)
  have d14 : ∀ r, List.drop 14 (leEnc 8 pid ++ (leEnc 4 nid ++ (leEnc 2 pl ++ r))) = r := by
    intro r; rw [show (14 : Nat) = 12 + 2 from rfl, ← List.drop_drop, d12]; exact drop_of_len (by simp)
  have d18 : ∀ r, List.drop 18 (leEnc 8 pid ++ (leEnc 4 nid ++ (leEnc 2 pl ++ (leEnc 4 ip ++ r)))) = r := by
    intro r; rw [show (18 : Nat) = 14 + 4 from rfl, ← List.drop_drop, d14]; exact drop_of_len (by simp)
  rw [take_of_len (by simp), d8, take_of_len (by simp), d12, take_of_len (by simp), d14,
    take_of_len (by simp), d18, take_of_len (by simp)]
  simp only [U64, U32] at *
  rw [leDec_leEnc 8 pid (by omega), leDec_leEnc 4 nid (by omega), leDec_leEnc 2 pl (by omega),
    leDec_leEnc 4 ip (by omega), leDec_leEnc 2 port (by omega)]

theorem enc_of_len {xs : List UInt8} {n : Nat} (h : xs.length = n) : leEnc n (leDec xs) = xs := by
  subst h; exact leEnc_leDec xs

theorem PacketHeader.enc_dec (xs : List UInt8) (h : xs.length = HDR_LEN) : (PacketHeader.dec xs).enc = xs := by
  have h' : xs.length = 20 := h
  unfold PacketHeader.dec PacketHeader.enc
  simp only
  rw [enc_of_len (xs := xs.take 8) (by simp; omega), enc_of_len (xs := (xs.drop 8).take 4) (by simp; omega),
    enc_of_len (xs := (xs.drop 12).take 2) (by simp; omega), enc_of_len (xs := (xs.drop 14).take 4) (by simp; omega),
    enc_of_len (xs := (xs.drop 18).take 2) (by simp; omega)]
  have d : ∀ a b : Nat, (xs.drop a).take b ++ xs.drop (a + b) = xs.drop a := by
    intro a b; rw [← List.drop_drop, List.take_append_drop]
  have e : (xs.drop 18).take 2 = xs.drop 18 := List.take_of_length_le (by simp; omega)
  rw [e, d 14 4, d 12 2, d 8 4, List.take_append_drop]

theorem AckInterval.dec_enc {a : AckInterval} (hv : a.Valid) (rest : List UInt8) :
    AckInterval.dec (a.enc ++ rest) = a := by
  obtain ⟨h1, h2⟩ := hv
  obtain ⟨f, l⟩ := a
  simp only at *
  unfold AckInterval.dec AckInterval.enc
  simp only [List.append_assoc]
  rw [take_of_len (by simp), drop_of_len (by simp), take_of_len (by simp)]
  simp only [U64] at *
  rw [leDec_leEnc 8 f (by omega), leDec_leEnc 8 l (by omega)]

theorem ctlDec_enc {n : Nat} (h : n < 65536) (rest : List UInt8) : ctlDec (ctlEnc n ++ rest) = n := by
  unfold ctlDec ctlEnc
  rw [take_of_len (by simp), leDec_leEnc 2 n (by omega)]

theorem leDec_take_lt (xs : List UInt8) (n m : Nat) (h : 256 ^ n ≤ m) : leDec (xs.take n) < m := by
  have h1 := leDec_lt (xs.take n)
  have h2 : 256 ^ (xs.take n).length ≤ 256 ^ n :=
    Nat.pow_le_pow_right (by omega) (by simp; omega)
  omega

/-- Whatever arrives decodes to fields within the range of their C types. -/
theorem PacketHeader.valid_dec (xs : List UInt8) : (PacketHeader.dec xs).Valid :=
  ⟨leDec_take_lt _ 8 _ (by decide), leDec_take_lt _ 4 _ (by decide), leDec_take_lt _ 2 _ (by decide),
    leDec_take_lt _ 4 _ (by decide), leDec_take_lt _ 2 _ (by decide)⟩

theorem AckInterval.valid_dec (xs : List UInt8) : (AckInterval.dec xs).Valid :=
  ⟨leDec_take_lt _ 8 _ (by decide), leDec_take_lt _ 8 _ (by decide)⟩

theorem ctlDec_lt (xs : List UInt8) : ctlDec xs < 65536 := leDec_take_lt _ 2 _ (by decide)

end Rmc
