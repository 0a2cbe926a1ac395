import Verif.Model.Eeprom
/-
A bus with EEPROMs as their data sheets describe them (24C256, 24FC1025, AT24MAC402): random writes of up to a page, and sequential reads.
The 24FC1025 answers to two addresses, which differ in bit 2, and looks like two devices of 64 KiB.
-/
set_option autoImplicit false
namespace Spec.Eeprom
open Modm.Eeprom (Byte Bus)

/-- A device with its contents and its internal address.  `page` bytes are programmed together. -/
structure Device where
  wide : Bool
  page : Nat
  size : Nat
  mem : Nat → Byte
  pointer : Nat

/-- Devices at their addresses of 7 bits. -/
abbrev Devices := Nat → Option Device

/-- Bytes of data from `offset` on within the page that begins at `base`; at its end the address goes back to its beginning. -/
def program (mem : Nat → Byte) (page base offset : Nat) : List Byte → Nat → Byte
  | [] => mem
  | b :: bs => program (fun x => if x = base + offset % page then b else mem x) page base (offset + 1) bs

/-- The device has got a message: the address, and data. -/
def Device.message (d : Device) (bytes : List Byte) : Device :=
  match d.wide, bytes with
  | true, hi :: lo :: data =>
    let p := (hi.toNat * 256 + lo.toNat) % d.size
    { d with pointer := p, mem := program d.mem d.page (p / d.page * d.page) (p % d.page) data }
  | false, lo :: data =>
    let p := lo.toNat % d.size
    { d with pointer := p, mem := program d.mem d.page (p / d.page * d.page) (p % d.page) data }
  | _, _ => d

/-- The bus between start and stop: the device that is addressed, for reading or with the bytes written so far. -/
inductive Talk
  | idle
  | writing (address : Nat) (bytes : List Byte)
  | reading (address : Nat)

/-- A message ends. -/
def finish (ds : Devices) : Talk → Devices
  | .writing a bytes => fun x => if x = a then (ds a).map fun d => d.message bytes else ds x
  | _ => ds

/-- The devices after what happens on the bus, the bytes read, and whether all was acknowledged; after a start that is not, there is nothing more. -/
def serve (ds : Devices) (talk : Talk) : List Bus → Devices × List Byte × Bool
  | [] => (ds, [], true)
  | .stop :: es => serve (finish ds talk) .idle es
  | .start address read :: es =>
    let a := (address >>> 1).toNat
    match finish ds talk a with
    | none => (finish ds talk, [], false)
    | some _ => serve (finish ds talk) (if read then .reading a else .writing a []) es
  | .write b :: es =>
    match talk with
    | .writing a bytes => serve ds (.writing a (bytes ++ [b])) es
    | _ => (ds, [], false)
  | .read n :: es =>
    match talk with
    | .reading a =>
      match ds a with
      | none => (ds, [], false)
      | some d =>
        let r := serve (fun x => if x = a then some { d with pointer := (d.pointer + n) % d.size } else ds x) talk es
        (r.1, (List.range n).map (fun k => d.mem ((d.pointer + k) % d.size)) ++ r.2.1, r.2.2)
    | _ => (ds, [], false)

/-- What the user wants of a write: the bytes from `address` on are those of `data`, the others are kept. -/
def written (mem : Nat → Byte) (address : Nat) (data : List Byte) : Nat → Byte :=
  fun x => if address ≤ x then data.getD (x - address) (mem x) else mem x

/-- Two devices are alike but for the internal address. -/
def Device.Same (d e : Device) : Prop := d.wide = e.wide ∧ d.page = e.page ∧ d.size = e.size ∧ d.mem = e.mem

/-- The contents have changed to `mem` at one address, and nothing else has. -/
def Becomes (ds ds' : Devices) (a : Nat) (d : Device) (mem : Nat → Byte) : Prop :=
  (∃ d', ds' a = some d' ∧ d'.Same { d with mem := mem }) ∧ ∀ x, x ≠ a → ds' x = ds x

end Spec.Eeprom
