import Verif.Model.Spi
import Verif.Spec.Spi
import Mathlib.Data.List.GetD
import Mathlib.Tactic.Ring

set_option autoImplicit false

/-!
# Properties of the bit-banged SPI master and the lock
-/

namespace Props.Spi

open Modm.Spi Modm.Spec.Spi

variable {α β : Type}

/-- The master wired to a device. -/
def wires (a : BitApp α) (pol pha : Bool) : Wires (Device α) where
  sck := Device.setSck a pol pha
  mosi := Device.setMosi
  miso := Device.getMiso
  delay := Device.tick

/-! ## C107: bytes are exchanged -/

/-- The bit that is sent next. -/
def topBit (lsb : Bool) (data : Byte) : Bool :=
  if lsb then data &&& 0x01#8 != 0#8 else data &&& 0x80#8 != 0#8

/-- The data register after one bit. -/
def shiftIn (lsb : Bool) (data : Byte) (b : Bool) : Byte :=
  if b then (if lsb then (data >>> 1) ||| 0x80#8 else (data <<< 1) ||| 0x01#8)
  else (if lsb then data >>> 1 else data <<< 1)

theorem bit_step (a : BitApp α) (m : Byte) (data : Byte) (d : Device α)
    (h : d.Idle a (cpol m) (cpha m)) :
    (transferBit (wires a (cpol m) (cpha m)) m data d).1
        = shiftIn (lsbFirst m) data (a.out d.app) ∧
      (transferBit (wires a (cpol m) (cpha m)) m data d).2.app
        = a.clock (topBit (lsbFirst m) data) d.app ∧
      (transferBit (wires a (cpol m) (cpha m)) m data d).2.Idle a (cpol m) (cpha m) ∧
      (transferBit (wires a (cpol m) (cpha m)) m data d).2.ok = d.ok := by
  obtain ⟨h1, h2, h3, h4, h5, h6⟩ := h
  obtain ⟨app, sck, mosi, miso, latch, now, edgeAt, mosiAt, outAt, sampleAt, ok⟩ := d
  simp only at h1 h2 h3 h4 h5 h6
  subst h1
  simp only [transferBit, wires, delayIf]
  have ht : (if lsbFirst m = true then data &&& 0x01#8 != 0#8 else data &&& 0x80#8 != 0#8)
    = topBit (lsbFirst m) data := rfl
  rw [ht]
  obtain ⟨t, ht⟩ : ∃ t, t = topBit (lsbFirst m) data := ⟨_, rfl⟩
  rw [← ht]
  clear ht
  have e1 : edgeAt < now + 1 := by omega
  have e2 : mosiAt < now + 1 := by omega
  have e3 : outAt < now + 1 := by omega
  have e4 : mosiAt < now + 1 + 1 := by omega
  have e5 : sampleAt < now + 1 := by split at h5 <;> omega
  cases hp : cpha m <;> cases hl : cpol m <;> by_cases hm : t = mosi <;>
    simp_all [Device.setSck, Device.setMosi, Device.getMiso, Device.tick, Device.edge, Device.sample,
      shiftIn] <;>
    constructor <;> (try simp) <;> omega

theorem topBit_eq (lsb : Bool) (data : Byte) :
    topBit lsb data = data.getLsbD (if lsb then 0 else 7) := by
  revert lsb data; decide +kernel

theorem shiftIn_bit (lsb : Bool) (data : Byte) (b : Bool) (i : Nat) (hi : i < 8) :
    (shiftIn lsb data b).getLsbD (if lsb then i else 7 - i)
      = if i = 7 then b else data.getLsbD (if lsb then i + 1 else 6 - i) := by
  obtain ⟨j, rfl⟩ : ∃ j : Fin 8, i = j.val := ⟨⟨i, hi⟩, rfl⟩
  revert lsb data b j; decide +kernel

/-- After `n` bits the first `n` bits of the register have been sent, and those received are at the
end. -/
theorem bits_step (a : BitApp α) (m : Byte) (n : Nat) (hn : n ≤ 8) (data : Byte) (d : Device α)
    (h : d.Idle a (cpol m) (cpha m)) :
    ∃ bits, bits = (List.range n).map (fun i => data.getLsbD (if lsbFirst m then i else 7 - i)) ∧
      (∀ i, i < 8 → (transferBits (wires a (cpol m) (cpha m)) m n data d).1.getLsbD
          (if lsbFirst m then i else 7 - i)
        = if i + n < 8 then data.getLsbD (if lsbFirst m then i + n else 7 - (i + n))
          else (exchangeBits a bits d.app).1.getD (i + n - 8) false) ∧
      (transferBits (wires a (cpol m) (cpha m)) m n data d).2.app = (exchangeBits a bits d.app).2 ∧
      (transferBits (wires a (cpol m) (cpha m)) m n data d).2.Idle a (cpol m) (cpha m) ∧
      (transferBits (wires a (cpol m) (cpha m)) m n data d).2.ok = d.ok := by
  induction n generalizing data d with
  | zero =>
    refine ⟨_, rfl, ?_, rfl, h, rfl⟩
    intro i hi
    simp [transferBits, hi]
  | succ n ih =>
    obtain ⟨h1, h2, h3, h4⟩ := bit_step a m data d h
    obtain ⟨bits, hb, k1, k2, k3, k4⟩ := ih (by omega)
      (transferBit (wires a (cpol m) (cpha m)) m data d).1
      (transferBit (wires a (cpol m) (cpha m)) m data d).2 h3
    rw [h1] at hb
    have hbits : (List.range (n + 1)).map (fun i => data.getLsbD (if lsbFirst m then i else 7 - i))
        = topBit (lsbFirst m) data :: bits := by
      rw [List.range_succ_eq_map, List.map_cons, List.map_map, hb, topBit_eq]
      congr 1
      apply List.map_congr_left
      intro i hi
      have hi' : i < n := List.mem_range.mp hi
      rw [shiftIn_bit _ _ _ _ (by omega), if_neg (by omega)]
      cases lsbFirst m
      · simp only [Function.comp, Bool.false_eq_true, if_false]
        rw [show 7 - i.succ = 6 - i by omega]
      · rfl
    refine ⟨_, rfl, ?_, ?_, k3, k4.trans h4⟩
    · intro i hi
      rw [hbits]
      simp only [transferBits, exchangeBits]
      rw [k1 i hi, h1]
      by_cases hc : i + (n + 1) < 8
      · rw [if_pos (by omega), if_pos hc, shiftIn_bit _ _ _ _ (by omega), if_neg (by omega)]
        cases lsbFirst m
        · simp only [Bool.false_eq_true, if_false]
          rw [show 6 - (i + n) = 7 - (i + (n + 1)) by omega]
        · rfl
      · rw [if_neg hc]
        by_cases hc' : i + n < 8
        · rw [if_pos hc', shiftIn_bit _ _ _ _ (by omega), if_pos (by omega),
            show i + (n + 1) - 8 = 0 by omega]
          rfl
        · rw [if_neg hc', show i + (n + 1) - 8 = (i + n - 8) + 1 by omega, List.getD_cons_succ, h2]
    · rw [hbits]
      simp only [transferBits, exchangeBits]
      rw [k2, h2]

theorem exchangeBits_length (a : BitApp α) (bits : List Bool) (s : α) :
    (exchangeBits a bits s).1.length = bits.length := by
  induction bits generalizing s with
  | nil => rfl
  | cons b bs ih => simp [exchangeBits, ih]

/-- C107: in all four modes and both orders, `transferBlocking` exchanges the bits of its argument, in
order, for eight bits of the device, with every signal stable around the edge at which it is
sampled. -/
theorem C107_byte (a : BitApp α) (m : Byte) (data : Byte) (d : Device α)
    (h : d.Idle a (cpol m) (cpha m)) :
    bitsOf (lsbFirst m) (transferByte (wires a (cpol m) (cpha m)) m data d).1
        = (exchangeBits a (bitsOf (lsbFirst m) data) d.app).1 ∧
      (transferByte (wires a (cpol m) (cpha m)) m data d).2.app
        = (exchangeBits a (bitsOf (lsbFirst m) data) d.app).2 ∧
      (transferByte (wires a (cpol m) (cpha m)) m data d).2.Idle a (cpol m) (cpha m) ∧
      (transferByte (wires a (cpol m) (cpha m)) m data d).2.ok = d.ok := by
  obtain ⟨bits, hb, k1, k2, k3, k4⟩ := bits_step a m 8 (le_refl _) data d h
  have hb' : bits = bitsOf (lsbFirst m) data := hb
  subst hb'
  refine ⟨?_, k2, k3, k4⟩
  have hlen : (exchangeBits a (bitsOf (lsbFirst m) data) d.app).1.length = 8 := by
    rw [exchangeBits_length]; simp [bitsOf]
  apply List.ext_getElem
  · rw [hlen]; simp [bitsOf]
  · intro i h1 h2
    have hi : i < 8 := by rw [hlen] at h2; exact h2
    have := k1 i hi
    rw [if_neg (show ¬ i + 8 < 8 by omega), show i + 8 - 8 = i by omega,
      List.getD_eq_getElem _ _ h2] at this
    rw [← this]
    simp only [bitsOf, List.getElem_map, List.getElem_range]
    rfl

theorem bitsOf_injective (lsb : Bool) (x y : Byte) (h : bitsOf lsb x = bitsOf lsb y) : x = y := by
  apply BitVec.eq_of_getLsbD_eq
  intro i hi
  have hi' : (if lsb then i else 7 - i) < 8 := by split <;> omega
  have := congrArg (fun l => l.getD (if lsb then i else 7 - i) false) h
  simp only [bitsOf, List.getD_eq_getElem?_getD, List.getElem?_map, List.getElem?_range hi',
    Option.map_some, Option.getD_some] at this
  cases lsb
  · simpa [show 7 - (7 - i) = i by omega] using this
  · simpa using this

theorem shiftRegister_clock (lsb : Bool) (r : Byte) (b : Bool) :
    (shiftRegister lsb).clock b r = shiftIn lsb r b := by
  revert lsb r b; decide +kernel

theorem shiftRegister_exchange (lsb : Bool) (n : Nat) (hn : n ≤ 8) (bits : List Bool)
    (hb : bits.length = n) (r : Byte) :
    (∀ i, i < n → (exchangeBits (shiftRegister lsb) bits r).1.getD i false
        = r.getLsbD (if lsb then i else 7 - i)) ∧
      (∀ i, i < 8 → (exchangeBits (shiftRegister lsb) bits r).2.getLsbD (if lsb then i else 7 - i)
        = if i + n < 8 then r.getLsbD (if lsb then i + n else 7 - (i + n))
          else bits.getD (i + n - 8) false) := by
  induction bits generalizing n r with
  | nil =>
    subst hb
    refine ⟨fun i hi => absurd hi (by simp), fun i hi => ?_⟩
    simp [exchangeBits, hi]
  | cons b bs ih =>
    obtain ⟨n, rfl⟩ : ∃ k, n = k + 1 := ⟨bs.length, by simpa using hb.symm⟩
    have hs := shiftRegister_clock lsb r b
    obtain ⟨h1, h2⟩ := ih n (by omega) (by simpa using hb) ((shiftRegister lsb).clock b r)
    simp only [exchangeBits]
    constructor
    · intro i hi
      cases i with
      | zero =>
        rw [List.getD_cons_zero]
        cases lsb <;> rfl
      | succ i =>
        rw [List.getD_cons_succ, h1 i (by omega), hs, shiftIn_bit _ _ _ _ (by omega), if_neg (by omega)]
        cases lsb
        · simp only [Bool.false_eq_true, if_false]
          rw [show 6 - i = 7 - (i + 1) by omega]
        · rfl
    · intro i hi
      rw [h2 i hi, hs]
      by_cases hc : i + (n + 1) < 8
      · rw [if_pos (by omega), if_pos hc, shiftIn_bit _ _ _ _ (by omega), if_neg (by omega)]
        cases lsb
        · simp only [Bool.false_eq_true, if_false]
          rw [show 6 - (i + n) = 7 - (i + (n + 1)) by omega]
        · rfl
      · rw [if_neg hc]
        by_cases hc' : i + n < 8
        · rw [if_pos hc', shiftIn_bit _ _ _ _ (by omega), if_pos (by omega),
            show i + (n + 1) - 8 = 0 by omega]
          rfl
        · rw [if_neg hc', show i + (n + 1) - 8 = (i + n - 8) + 1 by omega, List.getD_cons_succ]

/-- C107: with a shift register on the other side, the two bytes change places. -/
theorem C107_swap (m : Byte) (data : Byte) (d : Device Byte)
    (h : d.Idle (shiftRegister (lsbFirst m)) (cpol m) (cpha m)) :
    (transferByte (wires (shiftRegister (lsbFirst m)) (cpol m) (cpha m)) m data d).1 = d.app ∧
      (transferByte (wires (shiftRegister (lsbFirst m)) (cpol m) (cpha m)) m data d).2.app = data := by
  obtain ⟨h1, h2, -, -⟩ := C107_byte _ m data d h
  have hl : (bitsOf (lsbFirst m) data).length = 8 := by simp [bitsOf]
  obtain ⟨k1, k2⟩ := shiftRegister_exchange (lsbFirst m) 8 (le_refl _) _ hl d.app
  constructor
  · apply bitsOf_injective (lsbFirst m)
    rw [h1]
    apply List.ext_getElem
    · rw [exchangeBits_length]; simp [bitsOf]
    · intro i j1 j2
      have hi : i < 8 := by simpa [bitsOf] using j2
      have := k1 i hi
      rw [List.getD_eq_getElem _ _ j1] at this
      rw [this]
      simp [bitsOf]
  · rw [h2]
    apply BitVec.eq_of_getLsbD_eq
    intro i hi
    have := k2 (if lsbFirst m then i else 7 - i) (by split <;> omega)
    rw [if_neg (show ¬ (if lsbFirst m then i else 7 - i) + 8 < 8 by omega)] at this
    cases hm : lsbFirst m
    · rw [hm] at this
      simp only [Bool.false_eq_true, if_false, show 7 - (7 - i) = i by omega] at this
      rw [this, show 7 - i + 8 - 8 = 7 - i by omega]
      have h7 : 7 - i < 8 := by omega
      simp [bitsOf, List.getD_eq_getElem?_getD, List.getElem?_range h7, show 7 - (7 - i) = i by omega]
    · rw [hm] at this
      simp only [if_true] at this
      rw [this, show i + 8 - 8 = i by omega]
      simp [bitsOf, List.getD_eq_getElem?_getD, List.getElem?_range hi]

theorem byteOf_bitsOf (lsb : Bool) (b : Byte) : byteOf lsb (bitsOf lsb b) = b := by
  revert lsb b; decide +kernel

theorem bytes_exchange (a : ByteApp β) (lsb : Bool) (b : Byte) (s : β) :
    exchangeBits (a.bits lsb) (bitsOf lsb b) (s, []) = (bitsOf lsb (a.next s), (a.take b s, [])) := by
  have h := byteOf_bitsOf lsb b
  have hb : ∀ x, bitsOf lsb x = [x.getLsbD (if lsb then 0 else 7), x.getLsbD (if lsb then 1 else 6),
      x.getLsbD (if lsb then 2 else 5), x.getLsbD (if lsb then 3 else 4),
      x.getLsbD (if lsb then 4 else 3), x.getLsbD (if lsb then 5 else 2),
      x.getLsbD (if lsb then 6 else 1), x.getLsbD (if lsb then 7 else 0)] := fun _ => rfl
  rw [hb b] at h ⊢
  simp only [exchangeBits, ByteApp.bits, List.length_nil, List.nil_append]
  simp [h]
  simp [hb]

/-- C107: the same for a device that works with bytes. -/
theorem C107_device (a : ByteApp β) (m : Byte) (data : Byte) (s : β) (d : Device (β × List Bool))
    (h : d.Idle (a.bits (lsbFirst m)) (cpol m) (cpha m)) (hd : d.app = (s, [])) :
    (transferByte (wires (a.bits (lsbFirst m)) (cpol m) (cpha m)) m data d).1 = a.next s ∧
      (transferByte (wires (a.bits (lsbFirst m)) (cpol m) (cpha m)) m data d).2.app
        = (a.take data s, []) ∧
      (transferByte (wires (a.bits (lsbFirst m)) (cpol m) (cpha m)) m data d).2.Idle
        (a.bits (lsbFirst m)) (cpol m) (cpha m) ∧
      (transferByte (wires (a.bits (lsbFirst m)) (cpol m) (cpha m)) m data d).2.ok = d.ok := by
  obtain ⟨h1, h2, h3, h4⟩ := C107_byte _ m data d h
  rw [hd, bytes_exchange] at h1 h2
  exact ⟨bitsOf_injective _ _ _ h1, h2, h3, h4⟩

theorem exchangeBytes_length (a : ByteApp β) (bs : List Byte) (s : β) :
    (exchangeBytes a bs s).1.length = bs.length := by
  induction bs generalizing s with
  | nil => rfl
  | cons b bs ih => simp [exchangeBytes, ih]

/-- The bytes that are to be sent. -/
def toSend (tx : Option Nat) (dummy : Byte) (mem : Nat → Byte) (i n : Nat) : List Byte :=
  (List.range n).map fun j => match tx with
    | some p => mem (p + i + j)
    | none => dummy

/-- The memory with the received bytes. -/
def received (rx : Option Nat) (i : Nat) (bs : List Byte) (mem : Nat → Byte) : Nat → Byte :=
  match rx with
  | some p => fun x => if p + i ≤ x ∧ x < p + i + bs.length then bs.getD (x - (p + i)) 0#8 else mem x
  | none => mem

theorem loop_step (a : ByteApp β) (m : Byte) (tx rx : Option Nat) (n i : Nat) (dummy : Byte)
    (mem : Nat → Byte) (s : β) (d : Device (β × List Bool))
    (h : d.Idle (a.bits (lsbFirst m)) (cpol m) (cpha m)) (hd : d.app = (s, []))
    (hov : ∀ p q, rx = some p → tx = some q → p ≤ q ∨ q + i + n ≤ p + i) :
    ∃ r, r = transferLoop (wires (a.bits (lsbFirst m)) (cpol m) (cpha m)) m tx rx n i dummy mem d ∧
      r.1 = received rx i (exchangeBytes a (toSend tx dummy mem i n) s).1 mem ∧
      r.2.app = ((exchangeBytes a (toSend tx dummy mem i n) s).2, []) ∧
      r.2.Idle (a.bits (lsbFirst m)) (cpol m) (cpha m) ∧ r.2.ok = d.ok := by
  induction n generalizing i dummy mem s d with
  | zero =>
    refine ⟨_, rfl, ?_, hd, h, rfl⟩
    cases rx with
    | none => rfl
    | some p =>
      funext x
      simp [transferLoop, received, toSend, exchangeBytes]
  | succ n ih =>
    obtain ⟨t, ht⟩ : ∃ t : Byte, t = fetch tx i mem dummy := ⟨_, rfl⟩
    obtain ⟨h1, h2, h3, h4⟩ := C107_device a m t s d h hd
    obtain ⟨mem', hmem⟩ : ∃ mem', mem' = store rx i
      (transferByte (wires (a.bits (lsbFirst m)) (cpol m) (cpha m)) m t d).1 mem := ⟨_, rfl⟩
    obtain ⟨r, hr, k1, k2, k3, k4⟩ := ih (i + 1) t mem' (a.take t s)
      (transferByte (wires (a.bits (lsbFirst m)) (cpol m) (cpha m)) m t d).2 h3 h2
      (fun p q hp hq => by have := hov p q hp hq; omega)
    have hsend : toSend tx dummy mem i (n + 1) = t :: toSend tx t mem' (i + 1) n := by
      simp only [toSend, List.range_succ_eq_map, List.map_cons, List.map_map]
      congr 1
      · cases tx <;> simp [ht, fetch]
      · apply List.map_congr_left
        intro j hj
        have hj' : j < n := List.mem_range.mp hj
        cases tx with
        | none => simp [ht, fetch]
        | some q =>
          simp only [Function.comp]
          rw [show q + (i + 1) + j = q + i + j.succ by omega, hmem]
          cases rx with
          | none => rfl
          | some p =>
            have := hov p q rfl rfl
            simp only [store]
            rw [Function.update_of_ne (by omega)]
    refine ⟨r, ?_, ?_, ?_, k3, k4.trans h4⟩
    · rw [hr]
      simp only [transferLoop, ← ht, ← hmem]
    · rw [k1, hsend]
      simp only [exchangeBytes]
      cases rx with
      | none => rw [hmem]; rfl
      | some p =>
        funext x
        simp only [received, List.length_cons]
        simp only [store] at hmem
        obtain ⟨out, hout⟩ : ∃ out, out
          = (exchangeBytes a (toSend tx t mem' (i + 1) n) (a.take t s)).1 := ⟨_, rfl⟩
        rw [← hout, hmem, h1]
        by_cases hx : x = p + i
        · subst hx
          rw [if_neg (by omega), Function.update_self, if_pos (by omega), Nat.sub_self,
            List.getD_cons_zero]
        · rw [Function.update_of_ne hx]
          by_cases hx' : p + (i + 1) ≤ x ∧ x < p + (i + 1) + out.length
          · rw [if_pos hx', if_pos (by omega), show x - (p + i) = x - (p + (i + 1)) + 1 by omega,
              List.getD_cons_succ]
          · rw [if_neg hx', if_neg (by omega)]
    · rw [k2, hsend]
      rfl

/-- C107: a transfer of buffers sends the bytes of `tx`, or 0xff, and stores the answers in `rx`, or
nowhere; `rx` may be `tx`, or anything that does not overwrite bytes not yet sent. -/
theorem C107_buffers (a : ByteApp β) (m : Byte) (tx rx : Option Nat) (n : Nat)
    (mem : Nat → Byte) (s : β) (d : Device (β × List Bool))
    (h : d.Idle (a.bits (lsbFirst m)) (cpol m) (cpha m)) (hd : d.app = (s, []))
    (hov : ∀ p q, rx = some p → tx = some q → p ≤ q ∨ q + n ≤ p) :
    ∃ mem' d', transferBlocking (wires (a.bits (lsbFirst m)) (cpol m) (cpha m)) m tx rx n mem d
        = (mem', d') ∧
      ∃ sent got final, exchangeBytes a sent s = (got, final) ∧ d'.app = (final, []) ∧
        sent.length = n ∧
        (∀ i, i < n → sent[i]? = some (match tx with | some p => mem (p + i) | none => 0xff#8)) ∧
        (∀ i, i < n → ∀ p, rx = some p → got[i]? = some (mem' (p + i))) ∧
        (∀ x, (∀ p, rx = some p → ¬ (p ≤ x ∧ x < p + n)) → mem' x = mem x) ∧
        d'.Idle (a.bits (lsbFirst m)) (cpol m) (cpha m) ∧ d'.ok = d.ok := by
  obtain ⟨r, hr, k1, k2, k3, k4⟩ := loop_step a m tx rx n 0 0xff#8 mem s d h hd
    (fun p q hp hq => by have := hov p q hp hq; omega)
  have hl : (toSend tx 0xff#8 mem 0 n).length = n := by simp [toSend]
  have hl' : (exchangeBytes a (toSend tx 0xff#8 mem 0 n) s).1.length = n := by
    rw [exchangeBytes_length, hl]
  refine ⟨r.1, r.2, hr.symm, toSend tx 0xff#8 mem 0 n, _, _, rfl, k2, hl, ?_, ?_, ?_, k3, k4⟩
  · intro i hi
    simp only [toSend, List.getElem?_map, List.getElem?_range hi, Option.map_some, Nat.add_zero]
    cases tx <;> rfl
  · intro i hi p hp
    rw [k1, hp]
    simp only [received, Nat.add_zero]
    rw [if_pos (by omega), show p + i - p = i by omega, List.getD_eq_getElem _ _ (by omega),
      List.getElem?_eq_getElem]
  · intro x hx
    rw [k1]
    cases rx with
    | none => rfl
    | some p =>
      have := hx p rfl
      simp only [received, Nat.add_zero]
      rw [if_neg (by omega)]

/-- A device at rest. -/
def resting (app : α) (pol : Bool) (miso : Bool) : Device α where
  app := app
  sck := pol
  mosi := false
  miso := miso
  latch := false
  now := 1
  edgeAt := 0
  mosiAt := 0
  outAt := 0
  sampleAt := 0
  ok := true

/-- The hypotheses of C107 can be met in all modes. -/
example (a : BitApp α) (app : α) (m : Byte) :
    (resting app (cpol m) (a.out app)).Idle a (cpol m) (cpha m) :=
  ⟨rfl, by simp [resting], by simp [resting], by simp [resting], by cases cpha m <;> simp [resting],
    fun _ => rfl⟩

example : (transferByte (wires (shiftRegister false) true true) 0b11#8 0xa5#8
    (resting 0x3c#8 true false)).1 = 0x3c#8 := by decide +kernel

/-! ## C107: the mode -/

/-- C107: after `setDataMode` and `setDataOrder`, in either sequence, the mode is the one given, and
the clock is at its idle level. -/
theorem C107_mode {σ : Type} (w : Wires σ) (mode : DataMode) (lsb : Bool) (m : Master σ) :
    (cpol (setDataMode w mode m).mode = (mode == .mode2 || mode == .mode3)) ∧
      (cpha (setDataMode w mode m).mode = (mode == .mode1 || mode == .mode3)) ∧
      lsbFirst (setDataMode w mode m).mode = lsbFirst m.mode ∧
      (setDataMode w mode m).env = w.sck (mode == .mode2 || mode == .mode3) m.env ∧
      lsbFirst (setDataOrder lsb m).mode = lsb ∧
      cpol (setDataOrder lsb m).mode = cpol m.mode ∧
      cpha (setDataOrder lsb m).mode = cpha m.mode ∧
      (setDataOrder lsb m).env = m.env := by
  have h : ∀ (x : Byte) (mode : DataMode) (lsb : Bool),
      cpol ((x &&& ~~~ 0b11#8) ||| mode.value) = (mode == .mode2 || mode == .mode3) ∧
      cpha ((x &&& ~~~ 0b11#8) ||| mode.value) = (mode == .mode1 || mode == .mode3) ∧
      lsbFirst ((x &&& ~~~ 0b11#8) ||| mode.value) = lsbFirst x ∧
      lsbFirst (if lsb then x ||| 0b100#8 else x &&& ~~~ 0b100#8) = lsb ∧
      cpol (if lsb then x ||| 0b100#8 else x &&& ~~~ 0b100#8) = cpol x ∧
      cpha (if lsb then x ||| 0b100#8 else x &&& ~~~ 0b100#8) = cpha x := by
    intro x mode lsb
    revert x lsb
    cases mode <;> decide +kernel
  obtain ⟨h1, h2, h3, h4, h5, h6⟩ := h m.mode mode lsb
  refine ⟨h1, h2, h3, ?_, h4, h5, h6, rfl⟩
  simp only [setDataMode]
  rw [h1]

/-- C107: `initialize` pulls the clock low whatever the mode is.  When it is called again, for
another baud rate, with a clock that idles high, the device sees an edge too early and takes a
wrong bit. -/
theorem C107_reinitialise_counterexample :
    ∃ (m : Master (Device Byte)) (w : Wires (Device Byte)),
      w = wires (shiftRegister false) (cpol m.mode) (cpha m.mode) ∧
      m.env.Idle (shiftRegister false) (cpol m.mode) (cpha m.mode) ∧
      m.env.app = 0x3c#8 ∧
      (transferByte w m.mode 0xa5#8 m.env).2.app = 0xa5#8 ∧
      (transferByte w (initPins w m).mode 0xa5#8 (initPins w m).env).2.app = 0x25#8 := by
  refine ⟨⟨0b10#8, resting 0x3c#8 true false⟩, _, rfl, ?_, rfl, by decide +kernel, by decide +kernel⟩
  exact ⟨rfl, by decide, by decide, by decide, by decide, by decide⟩

/-! ## C111: the time of half a clock period -/

/-- C111: down to 7630 baud the delay is half a clock period, rounded down to nanoseconds. -/
theorem C111_spi_partial (baudrate : Nat) (h1 : 7630 ≤ baudrate) (h2 : baudrate ≤ 500000000) :
    delayTime baudrate = 500000000 / baudrate := by
  have h : 500000000 / baudrate ≤ 65530 := by
    calc 500000000 / baudrate ≤ 500000000 / 7630 := Nat.div_le_div_left h1 (by omega)
      _ ≤ 65530 := by decide
  have h' : 0 < 500000000 / baudrate := Nat.div_pos h2 (by omega)
  simp only [delayTime]
  rw [Nat.mod_eq_of_lt (by omega), if_neg (by omega)]

/-- C111: at 7000 baud `delayTime` overflows and the clock runs eleven times too fast. -/
theorem C111_spi_counterexample :
    delayTime 7000 = 5892 ∧ 500000000 / 7000 = 71428 := by decide

/-! ## C112: the lock -/

/-- A sequence of calls. -/
def call (l : Lock) : Op → Byte × Lock
  | .acquire c h => acquire c h l
  | .release c => release c l

def calls (l : Lock) : List Op → List Byte × Lock
  | [] => ([], l)
  | x :: xs => ((call l x).1 :: (calls (call l x).2 xs).1, (calls (call l x).2 xs).2)

/-- The lock and its specification. -/
structure Agree (l : Lock) (o : Owned) : Prop where
  count : l.count = BitVec.ofNat 8 o.depth
  context : l.context = o.owner.getD 0
  owner : o.owner ≠ some 0
  depth : o.owner = none ↔ o.depth = 0

theorem call_agree (l : Lock) (o : Owned) (x : Op) (h : Agree l o) (hx : x.Valid)
    (hd : o.depth ≤ 255) (hd' : (o.step x).2.depth ≤ 255) :
    (call l x).1 = BitVec.ofNat 8 (o.step x).1 ∧ Agree (call l x).2 (o.step x).2 := by
  obtain ⟨h1, h2, h3, h4⟩ := h
  obtain ⟨owner, depth⟩ := o
  obtain ⟨count, context, configuration, cs⟩ := l
  simp only at h1 h2 h3 h4 hd
  have hz : ∀ n : Nat, n ≤ 255 → (BitVec.ofNat 8 n = 0#8 ↔ n = 0) := by
    intro n hn
    constructor
    · intro he
      have := congrArg BitVec.toNat he
      simp at this
      omega
    · rintro rfl; rfl
  cases x with
  | acquire c hnd =>
    simp only [Op.Valid] at hx
    cases owner with
    | none =>
      simp only [Option.getD_none] at h2
      subst h2
      simp only [call, acquire, Owned.step, Owned.acquire, if_true]
      split
      · exact ⟨rfl, rfl, rfl, by simpa using hx, by simp⟩
      · exact ⟨rfl, rfl, rfl, by simpa using hx, by simp⟩
    | some c' =>
      simp only [Option.getD_some] at h2
      subst h2
      have hc : context ≠ 0 := by simpa using h3
      simp only [call, acquire, Owned.step, Owned.acquire, if_neg hc] at hd' ⊢
      by_cases hcc : c = context
      · subst hcc
        rw [if_pos rfl] at hd' ⊢
        rw [if_pos rfl]
        have : count + 1#8 = BitVec.ofNat 8 (depth + 1) := by
          rw [h1, BitVec.ofNat_add]
        exact ⟨this, this, rfl, by simpa using hx, by simp⟩
      · rw [if_neg hcc, if_neg hcc]
        exact ⟨rfl, h1, rfl, h3, h4⟩
  | release c =>
    simp only [Op.Valid] at hx
    cases owner with
    | none =>
      simp only [Option.getD_none] at h2
      subst h2
      simp only [call, release, Owned.step, Owned.release, if_neg hx]
      exact ⟨h1, h1, rfl, h3, h4⟩
    | some c' =>
      simp only [Option.getD_some] at h2
      subst h2
      have hpos : depth ≠ 0 := fun h => by simpa using h4.mpr h
      have hm : count - 1#8 = BitVec.ofNat 8 (depth - 1) := by
        rw [h1]
        apply BitVec.eq_of_toNat_eq
        simp only [BitVec.toNat_sub, BitVec.toNat_ofNat]
        omega
      simp only [call, release, Owned.step, Owned.release]
      by_cases hcc : c = context
      · subst hcc
        rw [if_pos rfl, if_pos rfl, hm]
        by_cases h1' : depth = 1
        · rw [if_pos ((hz _ (by omega)).mpr (by omega)), if_pos h1']
          exact ⟨rfl, rfl, rfl, by simp, by simp⟩
        · rw [if_neg (fun he => h1' (by have := (hz _ (by omega)).mp he; omega)), if_neg h1']
          exact ⟨rfl, rfl, rfl, by simpa using hx, by simp; omega⟩
      · rw [if_neg hcc, if_neg (by simpa using fun he : context = c => hcc he.symm)]
        exact ⟨h1, h1, rfl, h3, h4⟩

/-- C112: as long as nobody takes it more than 255 times, the lock gives exactly the results of a
lock with an owner and a depth. -/
theorem C112_lock_partial (xs : List Op) (hx : ∀ x ∈ xs, x.Valid)
    (hd : Owned.deepest {} xs ≤ 255) :
    (calls {} xs).1 = (Owned.run {} xs).1.map (BitVec.ofNat 8) ∧
      ∀ x ∈ (Owned.run {} xs).1, x ≤ 255 := by
  have key : ∀ (l : Lock) (o : Owned), Agree l o → (∀ x ∈ xs, x.Valid) → o.deepest xs ≤ 255 →
      (calls l xs).1 = (o.run xs).1.map (BitVec.ofNat 8) ∧ ∀ x ∈ (o.run xs).1, x ≤ 255 := by
    clear hx hd
    induction xs with
    | nil => intro l o _ _ _; exact ⟨rfl, by simp [Owned.run]⟩
    | cons x xs ih =>
      intro l o h hx hd
      simp only [Owned.deepest] at hd
      have hd2 : (o.step x).2.deepest xs ≤ 255 := le_trans (le_max_right _ _) hd
      have hd3 : (o.step x).2.depth ≤ 255 := by
        refine le_trans ?_ hd2
        cases xs with
        | nil => exact le_refl _
        | cons y ys => exact le_max_left _ _
      have hd1 : o.depth ≤ 255 := le_trans (le_max_left _ _) hd
      obtain ⟨k1, k2⟩ := call_agree l o x h (hx x (by simp)) hd1 hd3
      obtain ⟨i1, i2⟩ := ih _ _ k2 (fun y hy => hx y (by simp [hy])) hd2
      refine ⟨?_, ?_⟩
      · simp only [calls, Owned.run, List.map_cons]
        rw [k1, i1]
      · intro y hy
        simp only [Owned.run, List.mem_cons] at hy
        rcases hy with rfl | hy
        · cases x with
          | acquire c hnd =>
            simp only [Owned.step, Owned.acquire] at hd3 ⊢
            split
            · simp
            · split
              · rename_i h1 h2
                simp only [h1, h2, if_true] at hd3
                exact hd3
              · simp
          | release c =>
            simp only [Owned.step, Owned.release] at hd3 ⊢
            split
            · split
              · simp
              · simp only; omega
            · exact hd1
        · exact i2 y hy
  exact key {} {} ⟨rfl, rfl, by simp, by simp⟩ hx hd

example : (calls {} [.acquire 5 9, .acquire 6 0, .acquire 5 0, .release 5, .release 5,
    .acquire 6 8]).1 = [1#8, 0#8, 2#8, 1#8, 0#8, 1#8] := by decide

/-- C112: when a device with a configuration handler takes the free lock, the last handler called is
its own. -/
theorem C112_configured (xs : List Op) (c h : Nat) (hh : h ≠ 0)
    (hfree : (calls {} xs).2.context = 0) :
    (acquire c h (calls {} xs).2).2.calls.head? = some h := by
  have key : ∀ (xs : List Op) (l : Lock),
      (l.configuration ≠ 0 → l.calls.head? = some l.configuration) →
      ((calls l xs).2.configuration ≠ 0 →
        (calls l xs).2.calls.head? = some (calls l xs).2.configuration) := by
    intro xs
    induction xs with
    | nil => intro l h; exact h
    | cons x xs ih =>
      intro l hl
      simp only [calls]
      apply ih
      cases x with
      | acquire c' h' =>
        simp only [call, acquire]
        split
        · split
          · intro _; rfl
          · exact hl
        · split <;> exact hl
      | release c' =>
        simp only [call, release]
        split
        · split <;> exact hl
        · exact hl
  have := key xs {} (by intro h; exact absurd rfl h)
  obtain ⟨l, hl⟩ : ∃ l, l = (calls {} xs).2 := ⟨_, rfl⟩
  rw [← hl] at this hfree ⊢
  simp only [acquire, hfree, if_true]
  by_cases hc : l.configuration ≠ h
  · rw [if_pos ⟨hh, hc⟩]; rfl
  · have hc' : l.configuration = h := not_not.mp hc
    rw [if_neg (fun k => hc k.2)]
    simp only
    rw [← hc']
    exact this (by rw [hc']; exact hh)

example : (calls {} [.acquire 5 9, .release 5]).2.context = 0 := by decide

/-- C112: a handler is called only when the free lock is taken; a device that takes it again, and one
that is refused, call none. -/
theorem C112_handler_calls (c h : Nat) (l : Lock) (hl : l.context ≠ 0) :
    (acquire c h l).2.calls = l.calls ∧ (acquire c h l).2.configuration = l.configuration := by
  simp only [acquire, if_neg hl]
  split <;> exact ⟨rfl, rfl⟩

/-- C112: the 256th nested `acquire` gives 0, as if another device had the bus; one release then
gives 255. -/
theorem C112_overflow_counterexample :
    (calls {} (List.replicate 256 (.acquire 5 0))).1.getLast? = some 0#8 ∧
      (calls {} (List.replicate 256 (.acquire 5 0) ++ [.release 5])).1.getLast? = some 255#8 ∧
      (Owned.run {} (List.replicate 256 (.acquire 5 0))).1.getLast? = some 256 := by
  decide +kernel

end Props.Spi
