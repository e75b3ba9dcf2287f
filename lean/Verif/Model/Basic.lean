/-!
# Basic vocabulary of the model

Rust values as Lean data.  `u8/u16/u32` are `UInt8/UInt16/UInt32`; `Vec<u8>`, `&[u8]` and
`[u8; N]` are `List UInt8`; `usize` is `Nat` (64-bit target, allocation never fails).
-/

namespace Usbip

/-- `Vec<u8>` / `&[u8]` / `[u8; N]`.  As in src/device.rs:234-262, src/usbip_protocol.rs:83-91. -/
abbrev Bytes := List UInt8

/-- A Rust `String` whose characters matter (`string_pool` values): a list of Unicode scalar
values, which is what Rust's `char` and Lean's `Char` both are.  src/device.rs:66. -/
abbrev Str := List Char

/-- The part of `std::io::ErrorKind` the code distinguishes (src/lib.rs:374, 379, 403;
src/usbip_protocol.rs:152, 246; src/device.rs:434).  `os n` stands for any other kind. -/
inductive ErrKind where
  | unexpectedEof
  | other
  | invalidInput
  | notFound
  | os (code : Nat)
  deriving DecidableEq, Repr

/-- Result of running a piece of Rust code: normal value, `Err(kind)`, panic, or non-termination.  The
`std::io::Result` of src/usbip_protocol.rs:144-251, src/device.rs:278-528 and src/lib.rs:386-524, with the
panics and endless loops of Rust code made explicit. -/
inductive Outcome (α : Type u) where
  | ok (a : α)
  | err (e : ErrKind)
  | panic
  | diverge
  deriving DecidableEq, Repr

namespace Outcome

/-- `?`-style sequencing.  As the `?` of src/usbip_protocol.rs:97-102, 148-239, and the panics that unwind
through all of them. -/
def bind {α : Type u} {β : Type v} : Outcome α → (α → Outcome β) → Outcome β
  | .ok a, f => f a
  | .err e, _ => .err e
  | .panic, _ => .panic
  | .diverge, _ => .diverge

/-- `?` (src/usbip_protocol.rs:97-102, 148-239). -/
instance : Monad Outcome where
  pure := .ok
  bind := Outcome.bind

/-- Whether the code panicked.  As by `unreachable!` at src/lib.rs:399 or `unwrap` at src/lib.rs:465. -/
def isPanic {α : Type u} : Outcome α → Bool
  | .panic => true
  | _ => false

end Outcome

/-- Cargo build profile.  `dev` switches both on, `release` both off; the theorems quantify over
all four combinations.  `debug_assert!`s: src/usbip_protocol.rs:78, 101, 174, 180, 281, 389-395, 410,
src/device.rs:238, 243; overflow: src/device.rs:208, 419.  Cargo.toml sets no profile. -/
structure Profile where
  /-- `debug_assert!` is compiled in. -/
  debugAssertions : Bool
  /-- Integer overflow panics instead of wrapping. -/
  overflowChecks : Bool
  deriving DecidableEq, Repr

/-- `debug_assert!(c)`.  As in src/usbip_protocol.rs:78, 101, 174, 180, 281, 389, 410, src/device.rs:238,
243. -/
def debugAssert (p : Profile) (c : Bool) : Outcome Unit :=
  if p.debugAssertions && !c then .panic else .ok ()

/-- `u16::to_be_bytes`.  As in src/device.rs:250-251, src/usbip_protocol.rs:257-258, 357-358. -/
def be16 (x : UInt16) : Bytes :=
  [UInt8.ofNat (x.toNat / 256), UInt8.ofNat x.toNat]

/-- `u32::to_be_bytes`.  As in src/device.rs:247-249, src/usbip_protocol.rs:85-89, 288-292, 397-401. -/
def be32 (x : UInt32) : Bytes :=
  [UInt8.ofNat (x.toNat / 16777216), UInt8.ofNat (x.toNat / 65536),
   UInt8.ofNat (x.toNat / 256), UInt8.ofNat x.toNat]

/-- `u16::from_be_bytes`.  As in tokio `read_u16` at src/usbip_protocol.rs:148, 157. -/
def ofBe16 (a b : UInt8) : UInt16 :=
  UInt16.ofNat (a.toNat * 256 + b.toNat)

/-- `u32::from_be_bytes`.  As in src/usbip_protocol.rs:71-75, and in tokio `read_u32` at
src/usbip_protocol.rs:97-102. -/
def ofBe32 (a b c d : UInt8) : UInt32 :=
  UInt32.ofNat (a.toNat * 16777216 + b.toNat * 65536 + c.toNat * 256 + d.toNat)

/-- `Vec::<u8>::resize(n, 0)`: truncate or pad with zeros.  As in src/device.rs:239, 244, 327, 342, 396,
413, 429, 456, 498. -/
def resize (l : Bytes) (n : Nat) : Bytes :=
  l.take n ++ List.replicate (n - l.length) 0

/-- `n as u8` for a `usize`.  As in src/device.rs:259, 353, 365, 419, src/hid.rs:153. -/
def asU8 (n : Nat) : UInt8 := UInt8.ofNat n

/-- `n as u16` for a `usize`.  As in src/device.rs:326, 341, 390, 395, 412, 428, 455, 497. -/
def asU16 (n : Nat) : UInt16 := UInt16.ofNat n

/-- `n as u32` for a `usize`.  As in src/usbip_protocol.rs:283, 391, 428, 460. -/
def asU32 (n : Nat) : UInt32 := UInt32.ofNat n

end Usbip
