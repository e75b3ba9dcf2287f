import Verif.Model.Basic
import Verif.Spec.Handlers
/-!
# Specification: a host that knows HID

From the HID 1.11 specification (report descriptors: section 6.2.2; HID descriptor: 6.2.1; reports: 8.4, appendix
C) and the HID Usage Tables 1.12 (section 10: keyboard page).
-/

namespace Usbip.Spec

open Usbip

/-- A number from its little-endian bytes. -/
def leNat (b : Bytes) : Nat := b.foldr (fun x acc => x.toNat + 256 * acc) 0

/-- One item of a report descriptor: type and tag (the prefix byte without the size), value. -/
abbrev HidItem := Nat × Nat

/-- The items of a report descriptor (6.2.2.2): the low two bits of the prefix say whether 0, 1, 2 or 4 bytes of data
follow.  Long items (6.2.2.3) are not used by anybody; a descriptor with one has no reading here. -/
def hidItems : Nat → Bytes → Option (List HidItem)
  | _, [] => some []
  | 0, _ => none
  | fuel + 1, b :: rest =>
    let n := if b.toNat % 4 = 3 then 4 else b.toNat % 4
    if b = 0xFE then none
    else if rest.length < n then none
    else (hidItems fuel (rest.drop n)).map ((b.toNat - b.toNat % 4, leNat (rest.take n)) :: ·)

/-- Part of an input report (6.2.2.5, 6.2.2.7): `count` values of `size` bits, each either the state of one usage
(`single`) or the number of the usage that is active (array), counted from `umin` for the value `lmin`; `constant`
parts mean nothing. -/
structure HidField where
  constant : Bool
  single : Bool
  page : Nat
  umin : Nat
  umax : Nat
  lmin : Nat
  lmax : Nat
  size : Nat
  count : Nat
  deriving DecidableEq, Repr

/-- The global items (which stay) and the local items (which hold for the next main item). -/
structure HidState where
  page : Nat := 0
  lmin : Nat := 0
  lmax : Nat := 0
  size : Nat := 0
  count : Nat := 0
  umin : Nat := 0
  umax : Nat := 0

/-- The input report an item sequence declares.  Report ids, push and pop, and usages listed one by one for fields
are not needed for a keyboard: a descriptor that has report ids, push or pop has no reading here; single usages are
taken note of only in that main items forget them. -/
def hidFields : HidState → List HidItem → Option (List HidField)
  | _, [] => some []
  | s, (tag, v) :: rest =>
    if tag = 0x04 then hidFields { s with page := v } rest
    else if tag = 0x14 then hidFields { s with lmin := v } rest
    else if tag = 0x24 then hidFields { s with lmax := v } rest
    else if tag = 0x74 then hidFields { s with size := v } rest
    else if tag = 0x94 then hidFields { s with count := v } rest
    else if tag = 0x18 then hidFields { s with umin := v } rest
    else if tag = 0x28 then hidFields { s with umax := v } rest
    else if tag = 0x08 then hidFields s rest
    else if tag = 0x80 then
      (hidFields { s with umin := 0, umax := 0 } rest).map
        (⟨v % 2 = 1, v / 2 % 2 = 1, s.page, s.umin, s.umax, s.lmin, s.lmax, s.size, s.count⟩ :: ·)
    else if tag = 0xA0 ∨ tag = 0xC0 then hidFields { s with umin := 0, umax := 0 } rest
    else none

/-- What a report descriptor says about input reports. -/
def hidParse (d : Bytes) : Option (List HidField) := (hidItems d.length d).bind (hidFields {})

/-- `n` bits of a report from bit `off` on (section 8: little-endian).  A host takes what is missing of a short report as zero. -/
def reportBits (report : Bytes) (off n : Nat) : Nat := leNat report / 2 ^ off % 2 ^ n

/-- The usages that are active according to one part of a report, at bit `off`. -/
def HidField.active (f : HidField) (report : Bytes) (off : Nat) : List (Nat × Nat) :=
  if f.constant then []
  else (List.range f.count).filterMap fun i =>
    let v := reportBits report (off + i * f.size) f.size
    if f.single then if v ≠ 0 then some (f.page, f.umin + i) else none
    else if f.lmin ≤ v ∧ v ≤ f.lmax then some (f.page, f.umin + (v - f.lmin)) else none

/-- The usages that are active according to a report. -/
def activeUsages : List HidField → Bytes → Nat → List (Nat × Nat)
  | [], _, _ => []
  | f :: fs, report, off => f.active report off ++ activeUsages fs report (off + f.size * f.count)

/-- The keys that are down according to a report: usages of the keyboard page; usages 0 to 3 are no keys (usage
tables, section 10). -/
def keysDown (fs : List HidField) (report : Bytes) : List Nat :=
  (activeUsages fs report 0).filterMap fun u => if u.1 = 7 ∧ 4 ≤ u.2 then some u.2 else none

/-- What a key types when no other key is down (usage tables, section 10; US layout), for the keys of letters, digits and Enter. -/
def keyChar (usage : Nat) : Option UInt8 :=
  (ascii "abcdefghijklmnopqrstuvwxyz1234567890\n")[usage - 4]?

/-- What a host reads from a sequence of reports: every key that goes down types its character.  `down` are the keys
that are down before.  (Only keys pressed alone are read: anything else is not plain text.) -/
def hostReads (fs : List HidField) : (down : List Nat) → List Bytes → Option Bytes
  | _, [] => some []
  | down, r :: rs =>
    let now := keysDown fs r
    match now.filter (fun k => !down.contains k) with
    | [] => hostReads fs now rs
    | [k] => if now = [k] ∧ down = [] then (keyChar k).bind (fun c => (hostReads fs now rs).map (c :: ·)) else none
    | _ => none

/-- The report descriptor's length as the HID descriptor in a configuration descriptor announces it (6.2.1): nine bytes, type 0x21,
one subordinate descriptor of type 0x22.  `none` if there is no such descriptor. -/
def announcedReport : Nat → Bytes → Option Nat
  | 0, _ => none
  | _, [] => none
  | fuel + 1, l :: rest =>
    if rest.head? = some 0x21 then
      match l :: rest.take 8 with
      | [9, 0x21, _, _, _, 1, 0x22, a, b] => some (a.toNat + 256 * b.toNat)
      | _ => none
    else if l.toNat = 0 then none else announcedReport fuel (rest.drop (l.toNat - 1))

end Usbip.Spec
