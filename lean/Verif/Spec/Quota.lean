import Verif.Model.Protocol
/-!
# Reading with a limited amount of memory (C50)

`read_from_socket` (src/usbip_protocol.rs:147-250) has a buffer ready before each `read_exact`:
`[0; 32]`, `[0; 8]`, `[0; 24]`, `vec![0; transfer_buffer_length as usize]` (200),
`vec![0; 16 * number_of_packets as usize]` (211), and 2 or 4 bytes for `read_u16`/`read_u32`.  So the
memory reserved is the sum of the sizes asked for, and it is reserved before the data is there.
`Quota` is a socket that counts these sizes and refuses (`diverge`, which reading never does
otherwise) as soon as they exceed a limit.
-/

namespace Usbip.Spec
open Usbip

/-- A socket, the memory reserved so far, and how much may be reserved. -/
structure Quota where
  stream : Stream
  used : Nat
  limit : Nat

/-- Reserve `n` bytes, then read them. -/
def Quota.readExact (n : Nat) (q : Quota) : Outcome (Bytes × Quota) :=
  if q.used + n ≤ q.limit then
    if n ≤ q.stream.bytes.length then
      .ok (q.stream.bytes.take n,
        ⟨⟨q.stream.bytes.drop n, q.stream.fin⟩, q.used + n, q.limit⟩)
    else .err q.stream.fin
  else .diverge

instance : Source Quota := ⟨Quota.readExact⟩

/-- Reading one packet from a client that sent `bytes` reserves at most `limit` bytes. -/
def ReservesAtMost (p : Profile) (limit : Nat) (bytes : Bytes) (fin : ErrKind) : Prop :=
  (readCommand p : Rd Quota Cmd) ⟨⟨bytes, fin⟩, 0, limit⟩ ≠ .diverge

end Usbip.Spec
