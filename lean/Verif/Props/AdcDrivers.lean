import Mathlib.Tactic.Ring
import Mathlib.Tactic.IntervalCases
import Mathlib.Tactic.Linarith
import Verif.Model.AdcDrivers
set_option autoImplicit false

/-!
# Theorems about drivers of analogue converters (C269 – C274)
-/

namespace Props.AdcDrivers
open Model.AdcDrivers

/-! ## C269: check of AD7280A -/

/-- Division by x⁸ + x⁵ + x³ + x² + x + 1, one bit after the other (data sheet). -/
def divStep (r : BitVec 8) (b : Bool) : BitVec 8 :=
  if r.getLsbD 7 then ((r <<< 1) ||| (if b then 1#8 else 0#8)) ^^^ 0x2f#8 else (r <<< 1) ||| (if b then 1#8 else 0#8)

/-- Remainder of a word, most significant bit first. -/
def rem (bits : List Bool) : BitVec 8 := bits.foldl divStep 0#8

/-- The bits of a word of `w` bits, most significant first. -/
def msb {w : Nat} (m : BitVec w) : List Bool := (List.range w).reverse.map m.getLsbD

theorem crcStep_eq : ∀ d : BitVec 8, crcStep d = divStep d false := by decide +kernel

theorem divStep_xor : ∀ (r s : BitVec 8) (b c : Bool), divStep (r ^^^ s) (b ^^ c) = divStep r b ^^^ divStep s c := by
  intro r s b c
  have key : ∀ (r : BitVec 8) (b : Bool), divStep r b = ((r <<< 1) ^^^ (if b then 1#8 else 0#8)) ^^^ (if r.getLsbD 7 then 0x2f#8 else 0#8) := by
    decide +kernel
  rw [key, key r, key s, BitVec.shiftLeft_xor_distrib, BitVec.getLsbD_xor]
  have z : ∀ x : BitVec 8, x ^^^ 0#8 = x := fun x => BitVec.xor_zero
  generalize r <<< 1 = x
  generalize s <<< 1 = y
  apply BitVec.eq_of_getLsbD_eq
  intro i hi
  simp only [BitVec.getLsbD_xor]
  cases b <;> cases c <;> cases r.getLsbD 7 <;> cases s.getLsbD 7 <;> simp <;>
    cases x.getLsbD i <;> cases y.getLsbD i <;> simp <;> interval_cases i <;> simp

theorem feed_xor : ∀ (a b : List Bool) (r s : BitVec 8), a.length = b.length →
    (List.zipWith (fun x y => x ^^ y) a b).foldl divStep (r ^^^ s) = a.foldl divStep r ^^^ b.foldl divStep s := by
  intro a
  induction a with
  | nil =>
    intro b r s h
    cases b with
    | nil => rfl
    | cons _ _ => simp at h
  | cons x xs ih =>
    intro b r s h
    cases b with
    | nil => simp at h
    | cons y ys =>
      simp only [List.zipWith_cons_cons, List.foldl_cons]
      rw [divStep_xor]
      exact ih ys _ _ (by simpa using h)

theorem feed_zero : ∀ b : BitVec 8, (msb b).foldl divStep 0#8 = b := by decide +kernel
theorem feed_crc : ∀ r : BitVec 8, (List.replicate 8 false).foldl divStep r = updateCrc r := by decide +kernel

/-- Eight bits at a time. -/
theorem feed8 (r b : BitVec 8) : (msb b).foldl divStep r = updateCrc r ^^^ b := by
  have e : msb b = List.zipWith (fun x y => x ^^ y) (List.replicate 8 false) (msb b) := by
    simp [msb, List.range, List.range.loop, List.replicate]
  conv => lhs; rw [e, show r = r ^^^ 0#8 from BitVec.xor_zero.symm]
  rw [feed_xor _ _ _ _ (by simp [msb]), feed_crc, feed_zero]

theorem msb24 (m : BitVec 24) : msb m = msb ((m >>> 16).setWidth 8) ++ msb ((m >>> 8).setWidth 8) ++ msb (m.setWidth 8) := by
  simp [msb, List.range, List.range.loop]

/-- `calculateCrc` of a word of 24 bits (leading bits zero) is the remainder. -/
theorem crc24 (m : BitVec 24) : calculateCrc (m.setWidth 32) = rem (msb m) := by
  unfold rem
  rw [msb24, List.foldl_append, List.foldl_append, feed_zero, feed8, feed8]
  unfold calculateCrc
  have e1 : ((m.setWidth 32) >>> 16).setWidth 8 = (m >>> 16).setWidth 8 := by
    apply BitVec.eq_of_getLsbD_eq; intro i hi; interval_cases i <;> simp
  have e2 : ((m.setWidth 32) >>> 8).setWidth 8 = (m >>> 8).setWidth 8 := by
    apply BitVec.eq_of_getLsbD_eq; intro i hi; interval_cases i <;> simp
  have e3 : ((m.setWidth 32)).setWidth 8 = m.setWidth 8 := by
    apply BitVec.eq_of_getLsbD_eq; intro i hi; interval_cases i <;> simp
  simp only [e1, e2, e3]

theorem rem_false (l : List Bool) : rem (false :: l) = rem l := by
  unfold rem
  rw [List.foldl_cons, show divStep 0#8 false = 0#8 from by decide]

/-- The check of a reading covers 22 bits, that of a command 21: both are the
remainder of the data sheet. -/
theorem C269_crc (m : BitVec 22) (n : BitVec 21) :
    calculateCrc (m.setWidth 32) = rem (msb m) ∧ calculateCrc (n.setWidth 32) = rem (msb n) := by
  constructor
  · have h := crc24 (m.setWidth 24)
    have e : (m.setWidth 24).setWidth 32 = m.setWidth 32 := by
      apply BitVec.eq_of_getLsbD_eq; intro i hi; interval_cases i <;> simp
    have e2 : msb (m.setWidth 24) = false :: false :: msb m := by simp [msb, List.range, List.range.loop]
    rw [e, e2, rem_false, rem_false] at h
    exact h
  · have h := crc24 (n.setWidth 24)
    have e : (n.setWidth 24).setWidth 32 = n.setWidth 32 := by
      apply BitVec.eq_of_getLsbD_eq; intro i hi; interval_cases i <;> simp
    have e2 : msb (n.setWidth 24) = false :: false :: false :: msb n := by simp [msb, List.range, List.range.loop]
    rw [e, e2, rem_false, rem_false, rem_false] at h
    exact h

/-- Example 1 of the data sheet. -/
example : calculateCrc 0x003430#32 = 0x51#8 ∧ rem (msb (0x003430#21)) = 0x51#8 := by decide +kernel

/-- Syndrome of a word that was read. -/
def syn (v : BitVec 32) : BitVec 8 := calculateCrc (v >>> 10) ^^^ (v >>> 2).setWidth 8

theorem accepted_iff (v : BitVec 32) : accepted v = true ↔ syn v = 0#8 := by
  unfold accepted syn
  rw [beq_iff_eq]
  constructor
  · intro h; rw [h]; exact BitVec.xor_self
  · intro h
    have := congrArg (fun z => z ^^^ (v >>> 2).setWidth 8) h
    simpa [BitVec.xor_assoc] using this

theorem xor4 (a b c d : BitVec 8) : (a ^^^ b) ^^^ (c ^^^ d) = (a ^^^ c) ^^^ (b ^^^ d) := by
  rw [BitVec.xor_assoc, BitVec.xor_assoc, ← BitVec.xor_assoc b c d, BitVec.xor_comm b c, BitVec.xor_assoc]

theorem crcSteps_xor (n : Nat) : ∀ a b : BitVec 8, crcSteps n (a ^^^ b) = crcSteps n a ^^^ crcSteps n b := by
  induction n with
  | zero => intro a b; rfl
  | succ n ih =>
    intro a b
    have e : crcStep (a ^^^ b) = crcStep a ^^^ crcStep b := by
      rw [crcStep_eq, crcStep_eq, crcStep_eq]; exact divStep_xor a b false false
    simp only [crcSteps, e, ih]

theorem calc_xor (a b : BitVec 32) : calculateCrc (a ^^^ b) = calculateCrc a ^^^ calculateCrc b := by
  unfold calculateCrc updateCrc
  simp only [BitVec.ushiftRight_xor_distrib, BitVec.setWidth_xor, crcSteps_xor]
  ac_rfl

theorem syn_xor (a b : BitVec 32) : syn (a ^^^ b) = syn a ^^^ syn b := by
  unfold syn
  rw [BitVec.ushiftRight_xor_distrib, BitVec.ushiftRight_xor_distrib, calc_xor, BitVec.setWidth_xor, xor4]

theorem syn_burst : ∀ p : Fin 256, ∀ j : Fin 23, p.val ≠ 0 → syn (BitVec.ofNat 32 (p.val * 2 ^ (j.val + 2))) ≠ 0#8 := by
  decide +kernel

/-- No word with up to eight neighbouring wrong bits passes (the two bits behind the
check are not covered). -/
theorem C269_burst (v : BitVec 32) (hv : accepted v = true) (p j : Nat) (hp : 0 < p ∧ p < 256) (hj : 2 ≤ j ∧ j ≤ 24) :
    accepted (v ^^^ BitVec.ofNat 32 (p * 2 ^ j)) = false := by
  have h := syn_burst ⟨p, hp.2⟩ ⟨j - 2, by omega⟩ (by simp; omega)
  simp only [show j - 2 + 2 = j from by omega] at h
  rw [Bool.eq_false_iff]
  intro hc
  rw [accepted_iff, syn_xor, (accepted_iff v).mp hv, BitVec.zero_xor] at hc
  exact h hc

/-- A reading of the data sheet. -/
example : accepted 0x01912d88#32 = true := by decide +kernel

/-- A bus that stays low is accepted as well. -/
theorem C269_zero_counterexample : accepted 0#32 = true := by decide +kernel

/-! ## C270: commands and readings of AD7280A -/

/-- Fields of a command (data sheet): address with the least significant bit first,
register, value, all devices, a zero, check, 0 1 0. -/
structure Cmd where
  device : BitVec 5
  reg : BitVec 6
  value : BitVec 8
  all : Bool

def parse (f : BitVec 32) : Cmd :=
  ⟨(f.extractLsb' 27 5).reverse, f.extractLsb' 21 6, f.extractLsb' 13 8, f.getLsbD 12⟩

/-- A device takes a command with the right check and the right constant bits. -/
def valid (f : BitVec 32) : Bool :=
  f.extractLsb' 3 8 == rem (msb (f.extractLsb' 11 21)) && f.extractLsb' 0 3 == 2#3 && f.getLsbD 11 == false

def body (a reg : BitVec 8) (all : Bool) (value : BitVec 8) : BitVec 32 :=
  a.setWidth 32 <<< 24 ||| reg.setWidth 32 <<< 21 ||| value.setWidth 32 <<< 13 ||| (if all then 1#32 else 0#32) <<< 12

theorem frame_eq (device reg : BitVec 8) (all : Bool) (value : BitVec 8) :
    frame device reg all value = body (Modm.BitOps.bitReverse8 device) reg all value |||
      ((calculateCrc (body (Modm.BitOps.bitReverse8 device) reg all value >>> 11)).setWidth 32 <<< 3 ||| 0x2#32) := rfl

theorem rev5 : ∀ d : BitVec 5, Modm.BitOps.bitReverse8 (d.setWidth 8) = d.reverse ++ 0#3 := by decide +kernel

theorem app53 (r : BitVec 5) (z : BitVec 3) (i : Nat) (h : i < 8) : (r ++ z : BitVec 8)[i] = if i < 3 then z.getLsbD i else r.getLsbD (i - 3) := by
  rw [← BitVec.getLsbD_eq_getElem]
  exact BitVec.getLsbD_append

theorem body_low (a reg : BitVec 8) (all : Bool) (value : BitVec 8) (i : Nat) (h : i < 12) : (body a reg all value)[i] = false := by
  have h1 : ∀ (x : BitVec 32) (k : Nat), 12 ≤ k → (x <<< k)[i] = false := by
    intro x k hk
    rw [BitVec.getElem_shiftLeft]
    simp; omega
  unfold body
  rw [BitVec.getElem_or, BitVec.getElem_or, BitVec.getElem_or, h1 _ _ (by omega), h1 _ _ (by omega), h1 _ _ (by omega), h1 _ _ (by omega)]
  rfl

theorem body_dev (r : BitVec 5) (reg : BitVec 6) (all : Bool) (value : BitVec 8) :
    (body (r ++ 0#3) (reg.setWidth 8) all value).extractLsb' 27 5 = r := by
  unfold body
  apply BitVec.eq_of_getLsbD_eq; intro i hi
  interval_cases i <;> cases all <;> simp [app53]

theorem body_reg (r : BitVec 5) (reg : BitVec 6) (all : Bool) (value : BitVec 8) :
    (body (r ++ 0#3) (reg.setWidth 8) all value).extractLsb' 21 6 = reg := by
  unfold body
  apply BitVec.eq_of_getLsbD_eq; intro i hi
  interval_cases i <;> cases all <;> simp [app53]

theorem body_value (r : BitVec 5) (reg : BitVec 6) (all : Bool) (value : BitVec 8) :
    (body (r ++ 0#3) (reg.setWidth 8) all value).extractLsb' 13 8 = value := by
  unfold body
  apply BitVec.eq_of_getLsbD_eq; intro i hi
  interval_cases i <;> cases all <;> simp [app53]

theorem body_all (r : BitVec 5) (reg : BitVec 6) (all : Bool) (value : BitVec 8) :
    (body (r ++ 0#3) (reg.setWidth 8) all value).getLsbD 12 = all := by
  unfold body
  cases all <;> simp

theorem tail_high (t : BitVec 32) (c : BitVec 8) (s n : Nat) (h1 : 11 ≤ s) (h2 : s + n ≤ 32) :
    (t ||| (c.setWidth 32 <<< 3 ||| 0x2#32)).extractLsb' s n = t.extractLsb' s n := by
  have g : ∀ i, 11 ≤ i → i < 32 → (t ||| (c.setWidth 32 <<< 3 ||| 0x2#32)).getLsbD i = t.getLsbD i := by
    intro i h1 h2
    interval_cases i <;> simp
  apply BitVec.eq_of_getLsbD_eq; intro i hi
  rw [BitVec.getLsbD_extractLsb', BitVec.getLsbD_extractLsb', g _ (by omega) (by omega)]

/-- What is sent is a valid command with the device, register and value asked for. -/
theorem C270_frame (device : BitVec 5) (reg : BitVec 6) (all : Bool) (value : BitVec 8) :
    valid (frame (device.setWidth 8) (reg.setWidth 8) all value) = true ∧
      parse (frame (device.setWidth 8) (reg.setWidth 8) all value) = ⟨device, reg, value, all⟩ := by
  rw [frame_eq, rev5]
  have hb := body_low (device.reverse ++ 0#3) (reg.setWidth 8) all value
  have h1 := body_dev device.reverse reg all value
  have h2 := body_reg device.reverse reg all value
  have h3 := body_value device.reverse reg all value
  have h4 := body_all device.reverse reg all value
  generalize body (device.reverse ++ 0#3) (reg.setWidth 8) all value = t at *
  generalize hC : calculateCrc (t >>> 11) = c
  have e32 : (t.extractLsb' 11 21).setWidth 32 = t >>> 11 := by
    apply BitVec.eq_of_getLsbD_eq; intro i hi; interval_cases i <;> simp
  constructor
  · unfold valid
    rw [tail_high t c 11 21 (by omega) (by omega), ← (C269_crc 0#22 (t.extractLsb' 11 21)).2, e32, hC]
    simp only [Bool.and_eq_true, beq_iff_eq]
    refine ⟨⟨?_, ?_⟩, ?_⟩
    · apply BitVec.eq_of_getLsbD_eq; intro i hi
      interval_cases i <;> simp [hb]
    · apply BitVec.eq_of_getLsbD_eq; intro i hi
      interval_cases i <;> simp [hb]
    · simp [hb]
  · unfold parse
    rw [tail_high t c 27 5 (by omega) (by omega), tail_high t c 21 6 (by omega) (by omega), tail_high t c 13 8 (by omega) (by omega), h1, h2, h3]
    congr 1
    · exact BitVec.reverse_reverse_eq
    · rw [← h4]; simp

/-- Write 3 of table 29 of the data sheet. -/
example : frame 0#8 READ true 0x30#8 = 0x038617CA#32 := by decide +kernel

/-- Addresses beyond the five bits reach into the register number. -/
theorem C270_device_counterexample : parse (frame 32#8 READ false 0x30#8) ≠ ⟨0#5, 0x1c#6, 0x30#8, false⟩ := by
  intro h
  have := congrArg Cmd.reg h
  revert this
  decide +kernel

/-- A reading of the data sheet: address, channel, value, acknowledge, check, 0 0. -/
def reading (device : BitVec 5) (channel : BitVec 4) (value : BitVec 12) : BitVec 32 :=
  let m : BitVec 22 := device.reverse ++ channel ++ value ++ 1#1
  m ++ rem (msb m) ++ 0#2

theorem app_m (m : BitVec 22) (c : BitVec 8) (i : Nat) (h : i < 32) :
    (m ++ c ++ 0#2 : BitVec 32)[i] = if i < 2 then false else if i < 10 then c.getLsbD (i - 2) else m.getLsbD (i - 10) := by
  rw [← BitVec.getLsbD_eq_getElem]
  refine BitVec.getLsbD_append.trans ?_
  rw [BitVec.getLsbD_append]
  simp only [BitVec.getLsbD_zero]
  split
  · rfl
  · split <;> split <;> first | rfl | omega | (congr 1)

theorem app_r (r : BitVec 5) (channel : BitVec 4) (value : BitVec 12) (i : Nat) (h : i < 22) :
    (r ++ channel ++ value ++ 1#1 : BitVec 22).getLsbD i =
      if i < 1 then true else if i < 13 then value.getLsbD (i - 1) else if i < 17 then channel.getLsbD (i - 13) else r.getLsbD (i - 17) := by
  refine BitVec.getLsbD_append.trans ?_
  rw [BitVec.getLsbD_append, BitVec.getLsbD_append]
  split
  · rename_i h; have : i = 0 := by omega
    subst this; rfl
  · rw [show i - 1 - 12 = i - 13 from by omega, show i - 13 - 4 = i - 17 from by omega]
    by_cases h1 : i < 13
    · rw [if_pos h1, if_pos (by omega)]
    · rw [if_neg h1, if_neg (by omega)]
      by_cases h2 : i < 17
      · rw [if_pos h2, if_pos (by omega)]
      · rw [if_neg h2, if_neg (by omega)]

theorem reading_accepted (device : BitVec 5) (channel : BitVec 4) (value : BitVec 12) : accepted (reading device channel value) = true := by
  unfold reading accepted
  generalize device.reverse ++ channel ++ value ++ 1#1 = m
  simp only [beq_iff_eq]
  change BitVec 22 at m
  have e : (m ++ rem (msb m) ++ 0#2 : BitVec 32) >>> 10 = m.setWidth 32 := by
    apply BitVec.eq_of_getLsbD_eq; intro i hi; change i < 32 at hi; interval_cases i <;> simp [app_m]
  rw [e, (C269_crc m 0#21).1]
  generalize rem (msb m) = c
  apply BitVec.eq_of_getLsbD_eq; intro i hi; interval_cases i <;> simp [app_m]

theorem rev8and : ∀ d : BitVec 5, ∀ x : BitVec 3, Modm.BitOps.bitReverse8 (d.reverse ++ x) &&& 0x1f#8 = d.setWidth 8 := by decide +kernel

theorem conv_m (r : BitVec 5) (channel : BitVec 4) (value : BitVec 12) (c : BitVec 8) (m : BitVec 22)
    (hm : ∀ i (h : i < 22), m[i] =
      if i < 1 then true else if i < 13 then value.getLsbD (i - 1) else if i < 17 then channel.getLsbD (i - 13) else r.getLsbD (i - 17)) :
    ((m ++ c ++ 0#2 : BitVec 32) >>> 24).setWidth 8 = r ++ channel.extractLsb' 1 3 ∧
      ((m ++ c ++ 0#2 : BitVec 32) >>> 23).setWidth 8 &&& 0x0f#8 = channel.setWidth 8 ∧
      ((m ++ c ++ 0#2 : BitVec 32) >>> 11).setWidth 16 &&& 0xfff#16 = value.setWidth 16 := by
  refine ⟨?_, ?_, ?_⟩
  · apply BitVec.eq_of_getLsbD_eq; intro i hi; interval_cases i <;> simp [app_m, app53, hm]
  · apply BitVec.eq_of_getLsbD_eq; intro i hi; interval_cases i <;> simp [app_m, hm]
  · apply BitVec.eq_of_getLsbD_eq; intro i hi; interval_cases i <;> simp [app_m, hm]

theorem reading_conversion (device : BitVec 5) (channel : BitVec 4) (value : BitVec 12) :
    conversion (reading device channel value) = (device.setWidth 8, channel.setWidth 8, value.setWidth 16) := by
  unfold reading conversion
  simp only
  obtain ⟨h1, h2, h3⟩ := conv_m device.reverse channel value (rem (msb (device.reverse ++ channel ++ value ++ 1#1)))
    (device.reverse ++ channel ++ value ++ 1#1) (fun i h => by rw [← BitVec.getLsbD_eq_getElem]; exact app_r device.reverse channel value i h)
  refine Prod.ext ?_ (Prod.ext h2 h3)
  exact (congrArg (fun z => Modm.BitOps.bitReverse8 z &&& 0x1f#8) h1).trans (rev8and device _)

/-- Every reading of a device is accepted and taken apart rightly. -/
theorem C270_reading (device : BitVec 5) (channel : BitVec 4) (value : BitVec 12) :
    accepted (reading device channel value) = true ∧
      conversion (reading device channel value) = (device.setWidth 8, channel.setWidth 8, value.setWidth 16) :=
  ⟨reading_accepted device channel value, reading_conversion device channel value⟩

example : reading 0#5 3#4 549#12 = 0x01912d88#32 := by decide +kernel

/-! ## C271: channels of AD7280A -/

/-- A device with address 0, the only one the driver supports: register contents, the
results, and the result it sends next. The read register holds the number in its upper
six bits; each reading advances it. -/
structure Chip where
  regs : BitVec 6 → BitVec 8
  conv : BitVec 4 → BitVec 12
  ptr : BitVec 6

def chip (c : Chip) (f : BitVec 32) : Chip × BitVec 32 :=
  if f = 0xF800030A#32 then ({ c with ptr := c.ptr + 1#6 }, reading 0#5 (c.ptr.setWidth 4) (c.conv (c.ptr.setWidth 4)))
  else if valid f ∧ ((parse f).all = true ∨ (parse f).device = 0#5) then
    let p := parse f
    ({ c with regs := fun r => if r = p.reg then p.value else c.regs r, ptr := if p.reg = 0x1c#6 then p.value.extractLsb' 2 6 else c.ptr }, 0#32)
  else (c, 0#32)

theorem chip_write (c : Chip) (reg : BitVec 6) (all : Bool) (value : BitVec 8) (h : frame 0#8 (reg.setWidth 8) all value ≠ 0xF800030A#32) :
    (chip c (frame 0#8 (reg.setWidth 8) all value)).1 =
      ⟨fun r => if r = reg then value else c.regs r, c.conv, if reg = 0x1c#6 then value.extractLsb' 2 6 else c.ptr⟩ := by
  have hf := C270_frame 0#5 reg all value
  rw [show (0#5).setWidth 8 = 0#8 from rfl] at hf
  unfold chip
  rw [if_neg h, if_pos ⟨hf.1, Or.inr (by rw [hf.2])⟩]
  simp only [hf.2]

theorem frame_ne (reg : BitVec 6) (all : Bool) (value : BitVec 8) : frame 0#8 (reg.setWidth 8) all value ≠ 0xF800030A#32 := by
  intro h
  have hf := (C270_frame 0#5 reg all value).2
  rw [show (0#5).setWidth 8 = 0#8 from rfl, h] at hf
  have := congrArg Cmd.device hf
  simp only at this
  exact absurd this (by decide +kernel)

theorem chip_read (c : Chip) :
    Model.AdcDrivers.read chip c = ({ c with ptr := c.ptr + 1#6 }, some (reading 0#5 (c.ptr.setWidth 4) (c.conv (c.ptr.setWidth 4)))) := by
  unfold Model.AdcDrivers.read chip readWord
  simp [reading_accepted]

/-- `readAllChannels` returns the six results, in order. -/
theorem C271_all (c : Chip) (h : BitVec 8) :
    (readAllChannels chip h c).2 = (true, [0#4, 1#4, 2#4, 3#4, 4#4, 5#4].map fun i => (c.conv i).setWidth 16) := by
  unfold readAllChannels write
  have e1 := chip_write c 0x1c#6 true 0#8 (frame_ne _ _ _)
  rw [show (0x1c#6).setWidth 8 = READ from rfl] at e1
  rw [e1]
  have e2 := chip_write ⟨fun r => if r = 0x1c#6 then 0#8 else c.regs r, c.conv, 0#6⟩ 0x0d#6 true 0xa8#8 (frame_ne _ _ _)
  rw [show (0x0d#6).setWidth 8 = CTRL_HB from rfl] at e2
  simp only [if_true, show (0#8).extractLsb' 2 6 = 0#6 from rfl]
  rw [e2]
  simp only [readLoop, chip_read, reading_conversion]
  simp

/-- A reading that fails its check is reported and replaced by 0. -/
theorem C271_error {σ : Type} (x : σ → BitVec 32 → σ × BitVec 32) : ∀ (n : Nat) (s : σ), (readLoop x n s).2.1 = false ↔
    ∃ k < n, accepted (x (Nat.iterate (fun s => (x s readWord).1) k s) readWord).2 = false := by
  intro n
  induction n with
  | zero => intro s; simp [readLoop]
  | succ n ih =>
    intro s
    unfold readLoop Model.AdcDrivers.read
    by_cases ha : accepted (x s readWord).2 = true
    · simp only [ha, if_true]
      rw [ih]
      constructor
      · rintro ⟨k, hk, h⟩; exact ⟨k + 1, by omega, h⟩
      · rintro ⟨k, hk, h⟩
        cases k with
        | zero => simp only [Nat.iterate] at h; rw [ha] at h; exact absurd h (by decide)
        | succ k => exact ⟨k, by omega, h⟩
    · simp only [ha]
      simp only [Bool.false_eq_true, if_false, true_iff]
      exact ⟨0, by omega, by simpa using ha⟩

example : (readLoop (fun (s : Unit) _ => (s, 4#32)) 3 ()).2 = (false, [0#16, 0#16, 0#16]) := by decide +kernel

/-- A bus that stays low (no device, no supply) is reported as six cells of 0 V, with
success. -/
theorem C271_zero_counterexample :
    (readAllChannels (fun (s : Unit) _ => (s, 0#32)) 0#8 ()).2 = (true, [0#16, 0#16, 0#16, 0#16, 0#16, 0#16]) := by
  decide +kernel

/-- `readChannel` works for the first channel … -/
theorem C271_channel_partial (c : Chip) : (readChannel chip c 0#8 0#8).2 = some ((c.conv 0#4).setWidth 16) := by
  unfold readChannel write
  have e1 := chip_write c 0x0d#6 true 0x30#8 (frame_ne _ _ _)
  rw [show (0x0d#6).setWidth 8 = CTRL_HB from rfl] at e1
  rw [e1]
  simp only [show ¬ (0x0d#6 = 0x1c#6) from by decide, if_false]
  have e2 := fun d => chip_write d 0x0d#6 false 0x08#8 (frame_ne _ _ _)
  rw [show (0x0d#6).setWidth 8 = CTRL_HB from rfl] at e2
  rw [e2]
  simp only [show ¬ (0x0d#6 = 0x1c#6) from by decide, if_false]
  have e3 := fun d => chip_write d 0x1c#6 false 0#8 (frame_ne _ _ _)
  rw [show (0x1c#6).setWidth 8 = READ from rfl] at e3
  rw [e3]
  simp only [if_true]
  rw [chip_read]
  simp [reading_conversion]

/-- … and returns false for every other one, whatever the device measures: the number
goes into the read register without being shifted to its place. -/
theorem C271_channel_counterexample (c : Chip) (ch : BitVec 4) (h : ch ≠ 0#4) : (readChannel chip c 0#8 (ch.setWidth 8)).2 = none := by
  unfold readChannel write
  have e1 := chip_write c 0x0d#6 true 0x30#8 (frame_ne _ _ _)
  rw [show (0x0d#6).setWidth 8 = CTRL_HB from rfl] at e1
  rw [e1]
  simp only [show ¬ (0x0d#6 = 0x1c#6) from by decide, if_false]
  have e2 := fun d => chip_write d 0x0d#6 false 0x08#8 (frame_ne _ _ _)
  rw [show (0x0d#6).setWidth 8 = CTRL_HB from rfl] at e2
  rw [e2]
  simp only [show ¬ (0x0d#6 = 0x1c#6) from by decide, if_false]
  have e3 := fun d => chip_write d 0x1c#6 false (ch.setWidth 8) (frame_ne _ _ _)
  rw [show (0x1c#6).setWidth 8 = READ from rfl] at e3
  rw [e3]
  simp only [if_true]
  rw [chip_read]
  simp only [reading_conversion]
  have hne : ∀ ch : BitVec 4, ch ≠ 0#4 → (((ch.setWidth 8).extractLsb' 2 6).setWidth 4).setWidth 8 ≠ ch.setWidth 8 := by decide
  rw [if_neg (fun hh => hne ch h hh.2)]

/-- The averaging chosen with `initialize` has no effect: what is done does not depend
on it. -/
theorem C271_average_counterexample {σ : Type} (x : σ → BitVec 32 → σ × BitVec 32) (s : σ) :
    readAllChannels x 0x06#8 s = readAllChannels x 0x00#8 s := rfl

/-- The self-test passes exactly for the codes 971 … 989. -/
theorem C271_selftest (c : Chip) : (performSelftest chip c).2 = true ↔ 970 < (c.conv 12#4).toNat ∧ (c.conv 12#4).toNat < 990 := by
  unfold performSelftest write
  have e1 := chip_write c 0x0e#6 true 0x15#8 (frame_ne _ _ _)
  rw [show (0x0e#6).setWidth 8 = CTRL_LB from rfl] at e1
  rw [e1]
  simp only [show ¬ (0x0e#6 = 0x1c#6) from by decide, if_false]
  have e2 := fun d => chip_write d 0x0d#6 true 0xc8#8 (frame_ne _ _ _)
  rw [show (0x0d#6).setWidth 8 = CTRL_HB from rfl] at e2
  rw [e2]
  simp only [show ¬ (0x0d#6 = 0x1c#6) from by decide, if_false]
  have e3 := fun d => chip_write d 0x1c#6 true 0x30#8 (frame_ne _ _ _)
  rw [show (0x1c#6).setWidth 8 = READ from rfl] at e3
  rw [e3]
  simp only [if_true]
  rw [chip_read]
  simp only [reading_conversion, show ((0x30#8).extractLsb' 2 6).setWidth 4 = 12#4 from rfl]
  have ht : ((c.conv 12#4).setWidth 16).toNat = (c.conv 12#4).toNat := by
    rw [BitVec.toNat_setWidth]; exact Nat.mod_eq_of_lt (by have := (c.conv 12#4).isLt; omega)
  rw [ht]
  simp

/-- `chainSetup` reports success without a device. -/
theorem C271_setup_counterexample {σ : Type} (x : σ → BitVec 32 → σ × BitVec 32) (s : σ) : (chainSetup x s).2 = true := rfl

/-! ## C272: ADS101x -/

/-- What the caller asked for. -/
structure Want where
  input : BitVec 3
  range : BitVec 3
  single : Bool
  rate : BitVec 3
  high : Bool
  latch : Bool
deriving DecidableEq

def wish (w : Want) : AdsOp → Want
  | .init => { w with input := 0#3, range := 2#3, single := true, rate := 4#3 }
  | .single i => { w with input := i, single := true }
  | .continuous i r => { w with input := i, single := false, rate := r }
  | .range r => { w with range := r }
  | .comparator _ h l _ => { w with high := h, latch := l }
  | .ready => w

/-- The fields of the register `Config` in the data sheet. -/
def fields (c : BitVec 16) : Want :=
  ⟨c.extractLsb' 12 3, c.extractLsb' 9 3, c.getLsbD 8, c.extractLsb' 5 3, c.getLsbD 3, c.getLsbD 2⟩

theorem ext3 (c : BitVec 16) (k : Nat) (h : k < 14) (v : BitVec 3) (h0 : c[k] = v[0]) (h1 : c[k + 1] = v[1]) (h2 : c[k + 2] = v[2]) :
    c.extractLsb' k 3 = v := by
  apply BitVec.eq_of_getLsbD_eq; intro i hi
  interval_cases i
  · simp [h0, BitVec.getLsbD_eq_getElem (show k < 16 by omega)]
  · simp [h1, BitVec.getLsbD_eq_getElem (show k + 1 < 16 by omega)]
  · simp [h2, BitVec.getLsbD_eq_getElem (show k + 2 < 16 by omega)]

theorem ads_step (a : Ads) (o : AdsOp) : fields (adsOp a o).1.config = wish (fields a.config) o ∧
    fields (adsOp a o).2 = wish (fields a.config) o := by
  cases o with
  | init =>
    constructor <;> (simp only [adsOp, fields, wish, cset, maskInput, maskRange, maskMode, maskRate, maskQueue]; congr 1 <;>
      first | (simp; done) | (apply ext3 _ _ (by omega) <;> simp))
  | single i =>
    constructor <;> (simp only [adsOp, fields, wish, cset, maskInput, maskMode]; congr 1 <;>
      first | (simp; done) | (apply ext3 _ _ (by omega) <;> simp))
  | continuous i r =>
    constructor <;> (simp only [adsOp, fields, wish, cset, maskInput, maskMode, maskRate]; congr 1 <;>
      first | (simp; done) | (apply ext3 _ _ (by omega) <;> simp))
  | range r =>
    constructor <;> (simp only [adsOp, fields, wish, cset, maskRange]; congr 1 <;>
      first | (simp; done) | (apply ext3 _ _ (by omega) <;> simp))
  | comparator w h l q =>
    constructor <;> (simp only [adsOp, fields, wish, cset, maskComp, maskPol, maskLat, maskQueue]; congr 1 <;>
      first | (cases w <;> cases h <;> cases l <;> simp; done) | (apply ext3 _ _ (by omega) <;> cases w <;> cases h <;> cases l <;> simp))
  | ready =>
    constructor <;> (simp only [adsOp, fields, wish, cset, maskQueue]; congr 1 <;>
      first | (simp; done) | (apply ext3 _ _ (by omega) <;> simp))

/-- Input, range, mode, rate, polarity and latch written to the device are the ones last
asked for, whatever calls came before. -/
theorem C272_fields_partial (ops : List AdsOp) : ∀ (a : Ads) (w : BitVec 16), fields w = fields a.config →
    fields (adsRun a w ops).2 = ops.foldl wish (fields a.config) := by
  induction ops with
  | nil => intro a w h; exact h
  | cons o l ih =>
    intro a w h
    rw [adsRun, ih _ _ ((ads_step a o).2.trans (ads_step a o).1.symm), (ads_step a o).1, List.foldl_cons]

example : fields (adsRun ⟨0#16, 0⟩ 0#16 [.init, .range 5#3, .comparator false true false 0#2, .single 6#3]).2 =
    ⟨6#3, 5#3, true, 4#3, true, false⟩ := by decide +kernel

/-- The scale of the voltages is that of the range. -/
theorem C272_scale (ops : List AdsOp) : ∀ (a : Ads) (w : BitVec 16), a.lsb = (fields a.config).range.toNat →
    (adsRun a w ops).1.lsb = (ops.foldl wish (fields a.config)).range.toNat := by
  induction ops with
  | nil => intro a w h; exact h
  | cons o l ih =>
    intro a w h
    rw [adsRun, ih _ _ (by rw [(ads_step a o).1]; cases o <;> first | exact h | rfl), (ads_step a o).1, List.foldl_cons]

/-- A single conversion sets the start bit; nothing else does. -/
theorem C272_start (a : Ads) (o : AdsOp) (h : a.config[15] = false) :
    (adsOp a o).2[15] = (match o with | .single _ => true | _ => false) ∧ (adsOp a o).1.config[15] = false := by
  cases o with
  | init => simp [adsOp, cset, maskInput, maskRange, maskMode, maskRate, maskQueue, h]
  | single i => simp [adsOp, cset, maskInput, maskMode, h]
  | continuous i r => simp [adsOp, cset, maskInput, maskMode, maskRate, h]
  | range r => simp [adsOp, cset, maskRange, h]
  | comparator w hi l q => cases w <;> cases hi <;> cases l <;> simp [adsOp, cset, maskComp, maskPol, maskLat, maskQueue, h]
  | ready => simp [adsOp, cset, maskQueue, h]

theorem queue_step (a : Ads) (o : AdsOp) (h0 : a.config[0] = true) (h1 : a.config[1] = true) (h4 : a.config[4] = false) :
    ((adsOp a o).1.config[0] = true ∧ (adsOp a o).1.config[1] = true ∧ (adsOp a o).1.config[4] = false) ∧
      (adsOp a o).2[0] = true ∧ (adsOp a o).2[1] = true ∧ (adsOp a o).2[4] = false := by
  cases o with
  | init => simp [adsOp, cset, maskInput, maskRange, maskMode, maskRate, maskQueue]
  | single i => simp [adsOp, cset, maskInput, maskMode, h0, h1, h4]
  | continuous i r => simp [adsOp, cset, maskInput, maskMode, maskRate, h0, h1, h4]
  | range r => simp [adsOp, cset, maskRange, h0, h1, h4]
  | comparator w hi l q => cases w <;> cases hi <;> cases l <;> simp [adsOp, cset, maskComp, maskPol, maskLat, maskQueue, h0, h1]
  | ready => simp [adsOp, cset, maskQueue, h0, h1]

/-- After `initialize` the comparator and the conversion-ready pin stay off, and the
window mode stays unset, whatever is called: `enableComparator` and
`enableConversionReadyFunction` have no effect on them. The mask of the queue field is
that of the window bit. -/
theorem C272_comparator_counterexample (a : Ads) (ops : List AdsOp) :
    (adsRun (adsOp a .init).1 (adsOp a .init).2 ops).2.extractLsb' 0 2 = 3#2 ∧
      (adsRun (adsOp a .init).1 (adsOp a .init).2 ops).2.getLsbD 4 = false := by
  have key : ∀ (ops : List AdsOp) (a : Ads) (w : BitVec 16), a.config[0] = true → a.config[1] = true → a.config[4] = false →
      w[0] = true → w[1] = true → w[4] = false →
      (adsRun a w ops).2[0] = true ∧ (adsRun a w ops).2[1] = true ∧ (adsRun a w ops).2[4] = false := by
    intro ops
    induction ops with
    | nil => intro a w _ _ _ h0 h1 h4; exact ⟨h0, h1, h4⟩
    | cons o l ih =>
      intro a w h0 h1 h4 _ _ _
      obtain ⟨⟨c0, c1, c4⟩, w0, w1, w4⟩ := queue_step a o h0 h1 h4
      exact ih _ _ c0 c1 c4 w0 w1 w4
  obtain ⟨h0, h1, h4⟩ := key ops (adsOp a .init).1 (adsOp a .init).2
    (by simp [adsOp, cset, maskInput, maskRange, maskMode, maskRate, maskQueue])
    (by simp [adsOp, cset, maskInput, maskRange, maskMode, maskRate, maskQueue])
    (by simp [adsOp, cset, maskInput, maskRange, maskMode, maskRate, maskQueue])
    (by simp [adsOp, cset, maskInput, maskRange, maskMode, maskRate, maskQueue])
    (by simp [adsOp, cset, maskInput, maskRange, maskMode, maskRate, maskQueue])
    (by simp [adsOp, cset, maskInput, maskRange, maskMode, maskRate, maskQueue])
  generalize (adsRun _ _ ops).2 = r at *
  refine ⟨?_, by simpa using h4⟩
  apply BitVec.eq_of_getLsbD_eq; intro i hi
  interval_cases i <;> simp [h0, h1]

/-- The device delivers twelve bits, left aligned: the value is that number. -/
theorem C272_value : ∀ v : BitVec 12, adsValue (v.extractLsb' 4 8) (v.setWidth 4 ++ 0#4) = v.toInt := by decide +kernel

example : adsValue 0xff#8 0xf0#8 = -1 := by decide

/-- The table is the range over 2048. -/
theorem C272_table : lsbTable.map (fun l => l * 2048) = [6144, 4096, 2048, 1024, 512, 256].map (fun mv => mv * 8) := by decide

/-! ## C273: ADS7828, MCP3008, HX711, MCP4922 -/

/-- The command byte of ADS7828 holds the channel and the power mode last chosen. -/
theorem C273_ads7828 (cmd ch pd : BitVec 8) (h1 : ch &&& 0x0f#8 = 0#8) (h2 : pd &&& 0xf3#8 = 0#8) :
    (ads7828Channel cmd ch).extractLsb' 4 4 = ch.extractLsb' 4 4 ∧ (ads7828Channel cmd ch).extractLsb' 2 2 = cmd.extractLsb' 2 2 ∧
      (ads7828Power cmd pd).extractLsb' 2 2 = pd.extractLsb' 2 2 ∧ (ads7828Power cmd pd).extractLsb' 4 4 = cmd.extractLsb' 4 4 := by
  have b1 : ∀ i, i < 4 → ch.getLsbD i = false := by
    intro i hi
    have := congrArg (fun z => z.getLsbD i) h1
    interval_cases i <;> simpa using this
  have b2 : ∀ i, i < 8 → i ≠ 2 → i ≠ 3 → pd.getLsbD i = false := by
    intro i hi n2 n3
    have := congrArg (fun z => z.getLsbD i) h2
    interval_cases i <;> first | omega | simpa using this
  unfold ads7828Channel ads7828Power
  have c2 := b1 2 (by omega); have c3 := b1 3 (by omega)
  have d4 := b2 4 (by omega) (by omega) (by omega); have d5 := b2 5 (by omega) (by omega) (by omega)
  have d6 := b2 6 (by omega) (by omega) (by omega); have d7 := b2 7 (by omega) (by omega) (by omega)
  simp at c2 c3 d4 d5 d6 d7
  refine ⟨?_, ?_, ?_, ?_⟩ <;> (apply BitVec.eq_of_getLsbD_eq; intro i hi; interval_cases i <;> simp [c2, c3, d4, d5, d6, d7])

/-- The bits of the data sheet: single-ended, odd/sign, then the number halved; a pair
is positive at 2n (or 2n + 1 with the sign bit). -/
theorem C273_ads7828_channels :
    (∀ n : Fin 8, ads7828Single[n.val]! = (1#1 ++ BitVec.ofNat 1 (n.val % 2) ++ BitVec.ofNat 2 (n.val / 2) ++ 0#4 : BitVec 8)) ∧
      ads7828Pair.map (fun p => (p.1.1, p.1.2, p.2)) =
        (List.range 8).map (fun i => let n := i % 4; let s := i / 4; (2 * n + s, 2 * n + 1 - s, (0#1 ++ BitVec.ofNat 1 s ++ BitVec.ofNat 2 n ++ 0#4 : BitVec 8))) := by
  decide

/-- MCP3008: the bits of the channel follow the start bit, the value is that of the ten
bits at the end. -/
theorem C273_mcp3008 (single : Bool) (ch : BitVec 3) (r0 : BitVec 8) (x : BitVec 6) (v : BitVec 10) :
    (mcp3008Tx (BitVec.ofBool single ++ ch)) = [1#8, (BitVec.ofBool single ++ ch ++ 0#4 : BitVec 8), 0#8] ∧
      mcp3008Value [r0, x ++ v.extractLsb' 8 2, v.setWidth 8] = v.toNat := by
  constructor
  · unfold mcp3008Tx
    revert ch
    cases single <;> decide
  · unfold mcp3008Value
    have e : (x ++ v.extractLsb' 8 2 : BitVec 8) &&& 0x03#8 = (v.extractLsb' 8 2).setWidth 8 := by
      generalize v.extractLsb' 8 2 = y
      revert x y
      decide
    simp only [List.getD_cons_succ, List.getD_cons_zero]
    rw [e]
    simp only [BitVec.toNat_setWidth, BitVec.extractLsb'_toNat, Nat.shiftRight_eq_div_pow]
    have := v.isLt
    omega

/-- The number a list of bits stands for, most significant first. -/
def number (l : List Bool) : Nat := l.foldl (fun n b => 2 * n + b.toNat) 0

theorem number_lt : ∀ (l : List Bool) (n : Nat), l.foldl (fun n b => 2 * n + b.toNat) n < (n + 1) * 2 ^ l.length := by
  intro l
  induction l with
  | nil => intro n; simp
  | cons b l ih =>
    intro n
    have := ih (2 * n + b.toNat)
    rw [List.foldl_cons, List.length_cons, pow_succ]
    refine lt_of_lt_of_le this ?_
    have hb : b.toNat ≤ 1 := by cases b <;> decide
    calc (2 * n + b.toNat + 1) * 2 ^ l.length ≤ (2 * (n + 1)) * 2 ^ l.length := Nat.mul_le_mul_right _ (by omega)
      _ = (n + 1) * (2 ^ l.length * 2) := by ring

theorem shift_fold : ∀ (l : List Bool) (d : BitVec 32), (d.toNat + 1) * 2 ^ l.length ≤ 2 ^ 32 →
    (l.foldl (fun (d : BitVec 32) b => (d <<< 1) ||| (if b then 1#32 else 0#32)) d).toNat = l.foldl (fun n b => 2 * n + b.toNat) d.toNat := by
  intro l
  induction l with
  | nil => intro d _; rfl
  | cons b l ih =>
    intro d h
    rw [List.length_cons, pow_succ] at h
    have hd : 2 * (d.toNat + 1) ≤ 2 ^ 32 := by
      have : 1 ≤ 2 ^ l.length := Nat.one_le_two_pow
      calc 2 * (d.toNat + 1) = (d.toNat + 1) * (1 * 2) := by ring
        _ ≤ (d.toNat + 1) * (2 ^ l.length * 2) := Nat.mul_le_mul_left _ (Nat.mul_le_mul_right _ this)
        _ ≤ _ := h
    have e : ((d <<< 1) ||| (if b then 1#32 else 0#32)).toNat = 2 * d.toNat + b.toNat := by
      rw [BitVec.toNat_or, BitVec.toNat_shiftLeft, Nat.shiftLeft_eq, Nat.mod_eq_of_lt (by omega)]
      cases b
      · simp; omega
      · have h1 := Nat.two_pow_add_eq_or_of_lt (i := 1) (b := 1) (by decide) d.toNat
        simp only [if_true, Bool.toNat_true, BitVec.toNat_ofNat]
        rw [show d.toNat * 2 ^ 1 = 2 ^ 1 * d.toNat from by ring, show 1 % 2 ^ 32 = 1 from rfl, ← h1]
    rw [List.foldl_cons, List.foldl_cons, ih _ (by
      rw [e]
      have hb : b.toNat ≤ 1 := by cases b <;> decide
      calc (2 * d.toNat + b.toNat + 1) * 2 ^ l.length ≤ (2 * (d.toNat + 1)) * 2 ^ l.length := Nat.mul_le_mul_right _ (by omega)
        _ = (d.toNat + 1) * (2 ^ l.length * 2) := by ring
        _ ≤ _ := h), e]

/-- HX711: 24 bits in two's complement, and the pulses that choose the next input. -/
theorem C273_hx711 (mode : Nat) (bits : List Bool) (h : bits.length = 24) :
    (hx711 mode bits).1.toInt = (if number bits < 2 ^ 23 then (number bits : Int) else number bits - 2 ^ 24) ∧ (hx711 mode bits).2 = 24 + mode := by
  have hs := shift_fold bits 0#32 (by rw [h]; decide)
  have hl := number_lt bits 0
  rw [h] at hl
  refine ⟨?_, by simp [hx711, h]⟩
  unfold hx711
  simp only
  rw [show (0#32).toNat = 0 from rfl] at hs
  change _ = number bits at hs
  change number bits < _ at hl
  generalize List.foldl (fun (d : BitVec 32) b => (d <<< 1) ||| (if b then 1#32 else 0#32)) 0#32 bits = d at *
  rw [← hs] at hl ⊢
  have hlt : (d &&& 0x800000#32 ≠ 0#32) ↔ ¬ d.toNat < 2 ^ 23 := by
    have e : d &&& 0x800000#32 = if d.getLsbD 23 then 0x800000#32 else 0#32 := by
      apply BitVec.eq_of_getLsbD_eq; intro i hi
      by_cases h : d.getLsbD 23 = true
      · rw [if_pos h]
        interval_cases i <;> simp_all
      · rw [if_neg h]
        interval_cases i <;> simp_all
    have hb : d.getLsbD 23 = decide (2 ^ 23 ≤ d.toNat) := by
      rw [BitVec.getLsbD, Nat.testBit_eq_decide_div_mod_eq]
      congr 1
      apply propext
      omega
    rw [e, hb]
    by_cases h : 2 ^ 23 ≤ d.toNat <;> simp
  by_cases hc : d.toNat < 2 ^ 23
  · rw [if_neg (fun h => hlt.1 h hc), if_pos hc, BitVec.toInt_eq_toNat_cond, if_pos (by omega)]
  · rw [if_pos (hlt.2 hc), if_neg hc]
    have e : (d ||| 0xff000000#32).toNat = d.toNat + 0xff000000 := by
      have h1 := Nat.two_pow_add_eq_or_of_lt (i := 24) (b := d.toNat) (by omega) 0xff
      rw [BitVec.toNat_or, show (0xff000000#32).toNat = 2 ^ 24 * 0xff from rfl, Nat.or_comm, ← h1]; omega
    rw [BitVec.toInt_eq_toNat_cond, e, if_neg (by omega)]
    omega

example : (hx711 1 ((List.replicate 23 true) ++ [false])).1.toInt = -2 := by decide +kernel

/-- MCP4922: channel, buffered, gain, active, and the twelve bits of the value. -/
theorem C273_mcp4922 (b : Bool) (value : BitVec 16) (doubleGain : Bool) :
    (mcp4922 b value doubleGain)[15] = b ∧ (mcp4922 b value doubleGain)[14] = true ∧ (mcp4922 b value doubleGain)[13] = !doubleGain ∧
      (mcp4922 b value doubleGain)[12] = true ∧ (mcp4922 b value doubleGain).setWidth 12 = value.setWidth 12 := by
  unfold mcp4922
  refine ⟨?_, ?_, ?_, ?_, ?_⟩
  · cases b <;> cases doubleGain <;> simp
  · cases b <;> cases doubleGain <;> simp
  · cases b <;> cases doubleGain <;> simp
  · cases b <;> cases doubleGain <;> simp
  · apply BitVec.eq_of_getLsbD_eq; intro i hi
    interval_cases i <;> cases b <;> cases doubleGain <;> simp

/-! ## C274: AD7928 -/

/-- The device of the data sheet: selected channel, whether it is powered, whether the
next word goes to the shadow register, the sequence that runs and its position. -/
structure Dev where
  chan : BitVec 3
  awake : Bool
  pend : Bool
  seq : Option (List (BitVec 3))
  pos : Nat

/-- The channels of the shadow register: first sequence, then second, channel 0 at the
most significant bit. -/
def channels (w : BitVec 16) : List (BitVec 3) := ((List.range 16).filter fun i => w.getLsbD (15 - i)).map fun i => BitVec.ofNat 3 i

/-- What is converted at the next transfer; `none`: not a valid result. -/
def result (d : Dev) : Option (BitVec 3) :=
  if d.awake then
    match d.seq with
    | some l => l[d.pos % l.length]?
    | none => some d.chan
  else none

/-- A transfer. Without the write bit nothing changes, apart from the device waking up.
With power mode 3 the device stays awake; in modes 1 and 2 it is off afterwards. -/
def transfer (d : Dev) (w : BitVec 16) : Dev :=
  if d.pend then ⟨d.chan, true, false, some (channels w), 0⟩
  else if w.getLsbD 15 = false then ⟨d.chan, true, false, d.seq, d.pos + 1⟩
  else
    let on := decide (w.extractLsb' 8 2 = 3#2)
    match w.getLsbD 14, w.getLsbD 7 with
    | false, false => ⟨w.extractLsb' 10 3, on, false, none, 0⟩
    | false, true => ⟨w.extractLsb' 10 3, on, true, none, 0⟩
    | true, false => ⟨w.extractLsb' 10 3, on, false, d.seq, d.pos + 1⟩
    | true, true => ⟨w.extractLsb' 10 3, on, false, some ((List.range ((w.extractLsb' 10 3).toNat + 1)).map (BitVec.ofNat 3)), 0⟩

/-- Words one after the other: the device afterwards, and what the last transfer
delivered (`none` if there was none). -/
def send (d : Dev) : List (BitVec 16) → Dev × Option (Option (BitVec 3))
  | [] => (d, none)
  | [w] => (transfer d w, some (result d))
  | w :: v :: l => send (transfer d w) (v :: l)

/-- Driver and device. -/
def callAd (s : Ad × Dev) (o : AdOp) : Ad × Dev := ((adOp s.1 o).1, (send s.2 (adOp s.1 o).2).1)
def answer (s : Ad × Dev) (o : AdOp) : Option (Option (BitVec 3)) := (send s.2 (adOp s.1 o).2).2

/-- Word as the device sees it. -/
structure Bits where
  wr : Bool
  sq : Bool
  sh : Bool
  ch : BitVec 3
  pm : BitVec 2
deriving DecidableEq

def bits (w : BitVec 16) : Bits := ⟨w.getLsbD 15, w.getLsbD 14, w.getLsbD 7, w.extractLsb' 10 3, w.extractLsb' 8 2⟩

theorem ext2 (c : BitVec 16) (k : Nat) (h : k < 15) (v : BitVec 2) (h0 : c[k] = v[0]) (h1 : c[k + 1] = v[1]) : c.extractLsb' k 2 = v := by
  apply BitVec.eq_of_getLsbD_eq; intro i hi
  interval_cases i
  · simp [h0, BitVec.getLsbD_eq_getElem (show k < 16 by omega)]
  · simp [h1, BitVec.getLsbD_eq_getElem (show k + 1 < 16 by omega)]

theorem bits_seq0 (c : BitVec 16) : bits (setSeq c 0#16) = ⟨(bits c).wr, false, false, (bits c).ch, (bits c).pm⟩ := by
  unfold bits setSeq
  congr 1 <;> first | (simp; done) | (apply ext3 _ _ (by omega) <;> simp; done) | (apply ext2 _ _ (by omega) <;> simp)

theorem bits_seq1 (c : BitVec 16) : bits (setSeq c 0x80#16) = ⟨(bits c).wr, false, true, (bits c).ch, (bits c).pm⟩ := by
  unfold bits setSeq
  congr 1 <;> first | (simp; done) | (apply ext3 _ _ (by omega) <;> simp; done) | (apply ext2 _ _ (by omega) <;> simp)

theorem bits_seq2 (c : BitVec 16) : bits (setSeq c 0x4000#16) = ⟨(bits c).wr, true, false, (bits c).ch, (bits c).pm⟩ := by
  unfold bits setSeq
  congr 1 <;> first | (simp; done) | (apply ext3 _ _ (by omega) <;> simp; done) | (apply ext2 _ _ (by omega) <;> simp)

theorem bits_power (c : BitVec 16) (p : BitVec 2) : bits (setPower c p) = ⟨(bits c).wr, (bits c).sq, (bits c).sh, (bits c).ch, p⟩ := by
  unfold bits setPower
  congr 1 <;> first | (simp; done) | (apply ext3 _ _ (by omega) <;> simp; done) | (apply ext2 _ _ (by omega) <;> simp)

theorem bits_channel (c : BitVec 16) (p : BitVec 3) : bits (setChannel c p) = ⟨(bits c).wr, (bits c).sq, (bits c).sh, p, (bits c).pm⟩ := by
  unfold bits setChannel
  congr 1 <;> first | (simp; done) | (apply ext3 _ _ (by omega) <;> simp; done) | (apply ext2 _ _ (by omega) <;> simp)

theorem bits_range (c : BitVec 16) : bits (c &&& ~~~ 0x0020#16) = bits c ∧ bits (c ||| 0x0020#16) = bits c := by
  unfold bits
  constructor <;> (congr 1 <;> first | (simp; done) | (apply ext3 _ _ (by omega) <;> simp; done) | (apply ext2 _ _ (by omega) <;> simp))

theorem bits_init (c : BitVec 16) : bits (c ||| 0x8010#16) = ⟨true, (bits c).sq, (bits c).sh, (bits c).ch, (bits c).pm⟩ := by
  unfold bits
  congr 1 <;> first | (simp; done) | (apply ext3 _ _ (by omega) <;> simp; done) | (apply ext2 _ _ (by omega) <;> simp)

theorem getPower_bits (c : BitVec 16) : getPower c = (bits c).pm := by
  unfold getPower bits
  apply BitVec.eq_of_getLsbD_eq; intro i hi
  interval_cases i <;> simp

/-- The transfer in terms of these. -/
theorem transfer_bits (d : Dev) (w : BitVec 16) (hp : d.pend = false) (hw : (bits w).wr = true) :
    transfer d w = match (bits w).sq, (bits w).sh with
      | false, false => ⟨(bits w).ch, decide ((bits w).pm = 3#2), false, none, 0⟩
      | false, true => ⟨(bits w).ch, decide ((bits w).pm = 3#2), true, none, 0⟩
      | true, false => ⟨(bits w).ch, decide ((bits w).pm = 3#2), false, d.seq, d.pos + 1⟩
      | true, true => ⟨(bits w).ch, decide ((bits w).pm = 3#2), false, some ((List.range ((bits w).ch.toNat + 1)).map (BitVec.ofNat 3)), 0⟩ := by
  unfold transfer
  rw [hp, if_neg (by decide)]
  rw [show w.getLsbD 15 = true from hw, if_neg (by decide)]
  rfl

theorem transfer_dummy (d : Dev) (hp : d.pend = false) : transfer d 0#16 = ⟨d.chan, true, false, d.seq, d.pos + 1⟩ := by
  unfold transfer
  rw [hp]
  rfl

/-- Driver and device agree. -/
structure Agree (s : Ad × Dev) : Prop where
  pend : s.2.pend = false
  wr : (bits s.1.config).wr = true
  pm : (bits s.1.config).pm = 3#2 ∨ (bits s.1.config).pm = 1#2
  power : s.1.power = 3#2 ∨ s.1.power = 2#2 ∨ s.1.power = 1#2
  awake : s.2.awake = decide (s.1.power = 3#2)

theorem transfer_reset (d : Dev) : (transfer (transfer d 0xff#16) 0xff#16).pend = false := by
  unfold transfer
  cases d.pend <;> rfl

theorem agree_init (a : Ad) (d : Dev) : Agree (callAd (a, d) .init) := by
  have hp := transfer_reset d
  have hb : bits (setChannel (setPower (setSeq (a.config ||| 0x8010#16) 0#16) 3#2) 0#3) = ⟨true, false, false, 0#3, 3#2⟩ := by
    rw [bits_channel, bits_power, bits_seq0, bits_init]
  simp only [callAd, adOp, send]
  have ht := transfer_bits _ (setChannel (setPower (setSeq (a.config ||| 0x8010#16) 0#16) 3#2) 0#3) hp (by rw [hb])
  rw [ht, hb]
  exact ⟨rfl, by rw [hb], by rw [hb]; exact Or.inl rfl, Or.inl rfl, rfl⟩

theorem agree_single (s : Ad × Dev) (h : Agree s) (ch : BitVec 3) :
    Agree (callAd s (.single ch)) ∧ (callAd s (.single ch)).2.chan = ch ∧ (callAd s (.single ch)).2.seq = none ∧
      (callAd s (.single ch)).1.power = (bits (callAd s (.single ch)).1.config).pm := by
  obtain ⟨a, d⟩ := s
  obtain ⟨hp, hw, hpm, hpo, haw⟩ := h
  simp only at hp hw hpm hpo haw
  rcases hpo with hpo | hpo | hpo
  · have hb : bits (setChannel (setSeq a.config 0#16) ch) = ⟨true, false, false, ch, (bits a.config).pm⟩ := by rw [bits_channel, bits_seq0, hw]
    have hb' : bits (setChannel (setChannel (setSeq a.config 0#16) ch) 0#3) = ⟨true, false, false, 0#3, (bits a.config).pm⟩ := by rw [bits_channel, hb]
    have ht := transfer_bits d (setChannel (setSeq a.config 0#16) ch) hp (by rw [hb])
    simp only [callAd, adOp, hpo, show ¬ (3#2 = 2#2) from by decide, show ¬ (3#2 = 1#2) from by decide, if_false, send]
    rw [ht, hb]
    refine ⟨⟨rfl, by rw [hb'], by rw [hb']; exact hpm, ?_, ?_⟩, rfl, rfl, getPower_bits _⟩
    · simp only [getPower_bits, hb']; rcases hpm with h | h <;> simp [h]
    · simp only [getPower_bits, hb']
  · have hb0 : bits (setPower (setSeq (setSeq a.config 0#16) 0#16) 3#2) = ⟨true, false, false, (bits a.config).ch, 3#2⟩ := by
      rw [bits_power, bits_seq0, bits_seq0, hw]
    have hb : bits (setChannel (setPower (setSeq (setSeq a.config 0#16) 0#16) 3#2) ch) = ⟨true, false, false, ch, 3#2⟩ := by rw [bits_channel, hb0]
    have hb' : bits (setChannel (setChannel (setPower (setSeq (setSeq a.config 0#16) 0#16) 3#2) ch) 0#3) = ⟨true, false, false, 0#3, 3#2⟩ := by
      rw [bits_channel, hb]
    have ht0 := transfer_bits d (setPower (setSeq (setSeq a.config 0#16) 0#16) 3#2) hp (by rw [hb0])
    rw [hb0] at ht0
    have hp1 : (transfer d (setPower (setSeq (setSeq a.config 0#16) 0#16) 3#2)).pend = false := by rw [ht0]
    have ht := transfer_bits _ (setChannel (setPower (setSeq (setSeq a.config 0#16) 0#16) 3#2) ch) hp1 (by rw [hb])
    simp only [callAd, adOp, hpo, if_true, send]
    rw [ht, hb]
    refine ⟨⟨rfl, by rw [hb'], by rw [hb']; exact Or.inl rfl, ?_, ?_⟩, rfl, rfl, getPower_bits _⟩
    · simp [getPower_bits, hb']
    · simp only [getPower_bits, hb']
  · have hb : bits (setChannel (setSeq a.config 0#16) ch) = ⟨true, false, false, ch, (bits a.config).pm⟩ := by rw [bits_channel, bits_seq0, hw]
    have hb' : bits (setChannel (setChannel (setSeq a.config 0#16) ch) 0#3) = ⟨true, false, false, 0#3, (bits a.config).pm⟩ := by rw [bits_channel, hb]
    have hp1 : (transfer d 0#16).pend = false := by rw [transfer_dummy d hp]
    have ht := transfer_bits _ (setChannel (setSeq a.config 0#16) ch) hp1 (by rw [hb])
    simp only [callAd, adOp, hpo, show ¬ (1#2 = 2#2) from by decide, if_false, if_true, send]
    rw [ht, hb]
    refine ⟨⟨rfl, by rw [hb'], by rw [hb']; exact hpm, ?_, ?_⟩, rfl, rfl, getPower_bits _⟩
    · simp only [getPower_bits, hb']; rcases hpm with h | h <;> simp [h]
    · simp only [getPower_bits, hb']

theorem shadow_step (a c : BitVec 16) (d : Dev) (hp : d.pend = false) (hb : bits c = ⟨true, false, true, (bits a).ch, 3#2⟩) (w : BitVec 16) :
    transfer (transfer d c) w = ⟨(bits a).ch, true, false, some (channels w), 0⟩ := by
  rw [transfer_bits d c hp (by rw [hb]), hb]
  rfl

theorem agree_start (s : Ad × Dev) (h : Agree s) (s1 s2 : BitVec 8) :
    Agree (callAd s (.start s1 s2)) ∧ (callAd s (.start s1 s2)).2.seq = some (channels (s1 ++ s2)) ∧ (callAd s (.start s1 s2)).2.pos = 0 ∧
      (callAd s (.start s1 s2)).1.power = 3#2 ∧ (bits (callAd s (.start s1 s2)).1.config).pm = 3#2 := by
  obtain ⟨a, d⟩ := s
  obtain ⟨hp, hw, hpm, hpo, haw⟩ := h
  simp only at hp hw hpm hpo haw
  rcases hpo with hpo | hpo | hpo
  · have hb : bits (setSeq (setPower a.config 3#2) 0x80#16) = ⟨true, false, true, (bits a.config).ch, 3#2⟩ := by rw [bits_seq1, bits_power, hw]
    simp only [callAd, adOp, hpo, show ¬ (3#2 = 2#2) from by decide, show ¬ (3#2 = 1#2) from by decide, if_false, send]
    rw [shadow_step a.config _ d hp hb]
    exact ⟨⟨rfl, by rw [hb], by rw [hb]; exact Or.inl rfl, Or.inl rfl, rfl⟩, by simp [hb]⟩
  · have hb0 : bits (setPower (setSeq a.config 0#16) 3#2) = ⟨true, false, false, (bits a.config).ch, 3#2⟩ := by rw [bits_power, bits_seq0, hw]
    have hb : bits (setSeq (setPower (setPower (setSeq a.config 0#16) 3#2) 3#2) 0x80#16) = ⟨true, false, true, (bits a.config).ch, 3#2⟩ := by
      rw [bits_seq1, bits_power, hb0]
    have hp1 : (transfer d (setPower (setSeq a.config 0#16) 3#2)).pend = false := by
      rw [transfer_bits d _ hp (by rw [hb0]), hb0]
    simp only [callAd, adOp, hpo, if_true, send]
    rw [shadow_step a.config _ _ hp1 hb]
    exact ⟨⟨rfl, by rw [hb], by rw [hb]; exact Or.inl rfl, Or.inl rfl, rfl⟩, by simp [hb]⟩
  · have hb : bits (setSeq (setPower a.config 3#2) 0x80#16) = ⟨true, false, true, (bits a.config).ch, 3#2⟩ := by rw [bits_seq1, bits_power, hw]
    have hp1 : (transfer d 0#16).pend = false := by rw [transfer_dummy d hp]
    simp only [callAd, adOp, hpo, show ¬ (1#2 = 2#2) from by decide, if_false, if_true, send]
    rw [shadow_step a.config _ _ hp1 hb]
    exact ⟨⟨rfl, by rw [hb], by rw [hb]; exact Or.inl rfl, Or.inl rfl, rfl⟩, by simp [hb]⟩

theorem agree_next (s : Ad × Dev) (h : Agree s) :
    Agree (callAd s .next) ∧ (s.1.power = 3#2 → (callAd s .next).2.seq = s.2.seq ∧ (callAd s .next).2.pos = s.2.pos + 1 ∧
      (callAd s .next).1.power = (bits s.1.config).pm ∧ (bits (callAd s .next).1.config).pm = (bits s.1.config).pm) := by
  obtain ⟨a, d⟩ := s
  obtain ⟨hp, hw, hpm, hpo, haw⟩ := h
  simp only at hp hw hpm hpo haw
  have hb : bits (setSeq a.config 0x4000#16) = ⟨true, true, false, (bits a.config).ch, (bits a.config).pm⟩ := by rw [bits_seq2, hw]
  by_cases h3 : a.power = 3#2
  · have ht := transfer_bits d (setSeq a.config 0x4000#16) hp (by rw [hb])
    simp only [callAd, adOp, h3, ne_eq, not_true, if_false, send]
    rw [ht, hb]
    refine ⟨⟨rfl, by rw [hb], by rw [hb]; exact hpm, ?_, ?_⟩, fun _ => ⟨rfl, rfl, ?_, rfl⟩⟩
    · simp only [getPower_bits, hb]; rcases hpm with h | h <;> simp [h]
    · simp only [getPower_bits, hb]
    · simp only [getPower_bits, hb]
  · simp only [callAd, adOp, ne_eq, h3, not_false_eq_true, if_true, send]
    exact ⟨⟨hp, by rw [hb], by rw [hb]; exact hpm, hpo, haw⟩, fun h => absurd h (by simpa using h3)⟩

theorem agree_call (s : Ad × Dev) (h : Agree s) (o : AdOp) : Agree (callAd s o) := by
  cases o with
  | init => exact agree_init _ _
  | single ch => exact (agree_single s h ch).1
  | start s1 s2 => exact (agree_start s h s1 s2).1
  | next => exact (agree_next s h).1
  | range ext =>
    obtain ⟨hp, hw, hpm, hpo, haw⟩ := h
    cases ext
    · have e : bits (callAd s (.range false)).1.config = bits s.1.config := (bits_range s.1.config).2
      exact ⟨hp, by rw [e]; exact hw, by rw [e]; exact hpm, hpo, haw⟩
    · have e : bits (callAd s (.range true)).1.config = bits s.1.config := (bits_range s.1.config).1
      exact ⟨hp, by rw [e]; exact hw, by rw [e]; exact hpm, hpo, haw⟩
  | auto on =>
    obtain ⟨hp, hw, hpm, hpo, haw⟩ := h
    refine ⟨hp, by simp only [callAd, adOp, bits_power]; exact hw, ?_, hpo, haw⟩
    simp only [callAd, adOp, bits_power]
    cases on <;> simp
  | shutdown =>
    obtain ⟨a, d⟩ := s
    obtain ⟨hp, hw, hpm, hpo, haw⟩ := h
    simp only at hp hw hpm hpo haw
    have hb : bits (setPower (setSeq a.config 0#16) 2#2) = ⟨true, false, false, (bits a.config).ch, 2#2⟩ := by rw [bits_power, bits_seq0, hw]
    have ht := transfer_bits d (setPower (setSeq a.config 0#16) 2#2) hp (by rw [hb])
    simp only [callAd, adOp, send]
    rw [ht, hb]
    exact ⟨rfl, by rw [bits_seq0]; exact hw, by rw [bits_seq0]; exact hpm, Or.inr (Or.inl rfl), rfl⟩
  | wakeup =>
    obtain ⟨a, d⟩ := s
    obtain ⟨hp, hw, hpm, hpo, haw⟩ := h
    simp only at hp hw hpm hpo haw
    have hb : bits (setPower (setSeq a.config 0#16) 3#2) = ⟨true, false, false, (bits a.config).ch, 3#2⟩ := by rw [bits_power, bits_seq0, hw]
    have ht := transfer_bits d (setPower (setSeq a.config 0#16) 3#2) hp (by rw [hb])
    simp only [callAd, adOp, send]
    rw [ht, hb]
    exact ⟨rfl, by rw [hb], by rw [hb]; exact Or.inl rfl, Or.inl rfl, rfl⟩

theorem agree_run (ops : List AdOp) : ∀ (s : Ad × Dev), Agree s → Agree (ops.foldl callAd s) := by
  induction ops with
  | nil => intro s h; exact h
  | cons o l ih => intro s h; exact ih _ (agree_call s h o)

/-- A conversion delivers the valid result of the channel asked for by the conversion
before, whatever was called earlier and in whatever state the device was found; also
with the automatic shutdown. -/
theorem C274_single (a : Ad) (d : Dev) (ops : List AdOp) (x y : BitVec 3) :
    answer (callAd (ops.foldl callAd (callAd (a, d) .init)) (.single x)) (.single y) = some (some x) := by
  have hA := agree_run ops _ (agree_init a d)
  obtain ⟨h, hc, hs, hpp⟩ := agree_single _ hA x
  generalize callAd (ops.foldl callAd (callAd (a, d) .init)) (.single x) = s at *
  obtain ⟨a, d⟩ := s
  obtain ⟨hp, hw, hpm, hpo, haw⟩ := h
  simp only at hp hw hpm hpo haw hc hs
  have hnot : a.power ≠ 2#2 := by
    simp only at hpp
    rw [hpp]
    rcases hpm with h | h <;> rw [h] <;> decide
  rcases hpo with hpo | hpo | hpo
  · simp only [answer, adOp, hpo, show ¬ (3#2 = 2#2) from by decide, show ¬ (3#2 = 1#2) from by decide, if_false, send, result]
    rw [haw, hpo]; simp [hs, hc]
  · exact absurd hpo hnot
  · simp only [answer, adOp, hpo, show ¬ (1#2 = 2#2) from by decide, if_false, if_true, send, result]
    rw [transfer_dummy d hp]; simp [hs, hc]

/-- The automatic shutdown in use: the second conversion wakes the device up first. -/
example : answer (callAd (callAd (callAd (adNew, ⟨5#3, true, true, none, 3⟩) .init) (.auto true)) (.single 4#3)) (.single 2#3) = some (some 4#3) ∧
    (adOp (callAd (callAd (callAd (adNew, ⟨5#3, true, true, none, 3⟩) .init) (.auto true)) (.single 4#3)).1 (.single 2#3)).2 = [0#16, 0x8930#16] := by
  decide +kernel

/-- The sequence and its range settings: the calls `nextSequenceConversion` among the
ones made, each with what it delivers. -/
def nexts (s : Ad × Dev) : List AdOp → List (Option (Option (BitVec 3)))
  | [] => []
  | .next :: l => answer s .next :: nexts (callAd s .next) l
  | o :: l => nexts (callAd s o) l

theorem nexts_run (l : List (BitVec 3)) (hl : l ≠ []) (ops : List AdOp) : ∀ (s : Ad × Dev), Agree s → s.2.seq = some l → s.1.power = 3#2 →
    (bits s.1.config).pm = 3#2 → (∀ o ∈ ops, o = .next ∨ ∃ e, o = .range e) → ∀ k < (nexts s ops).length,
      (nexts s ops)[k]? = some (some (l[(s.2.pos + k) % l.length]?)) := by
  induction ops with
  | nil => intro s _ _ _ _ _ k hk; simp [nexts] at hk
  | cons o os ih =>
    intro s hA hs hpw hpm hop k hk
    rcases hop o (List.mem_cons_self) with rfl | ⟨e, rfl⟩
    · obtain ⟨hA', hn⟩ := agree_next s hA
      obtain ⟨n1, n2, n3, n4⟩ := hn hpw
      have hans : answer s .next = some (l[s.2.pos % l.length]?) := by
        simp only [answer, adOp, hpw, ne_eq, not_true, if_false, send, result]
        rw [hA.awake, hpw, hs]
        rfl
      cases k with
      | zero => simp only [nexts, List.getElem?_cons_zero, hans, Nat.add_zero]
      | succ k =>
        simp only [nexts, List.getElem?_cons_succ]
        have := ih (callAd s .next) hA' (n1.trans hs) (n3.trans hpm) (n4.trans hpm) (fun o h => hop o (List.mem_cons_of_mem _ h)) k
          (by simp only [nexts, List.length_cons] at hk; omega)
        rw [this, n2, show s.2.pos + 1 + k = s.2.pos + (k + 1) from by omega]
    · have hA' := agree_call s hA (.range e)
      have e1 : bits (callAd s (.range e)).1.config = bits s.1.config := by
        cases e
        · exact (bits_range s.1.config).2
        · exact (bits_range s.1.config).1
      exact ih (callAd s (.range e)) hA' hs hpw (by rw [e1]; exact hpm) (fun o h => hop o (List.mem_cons_of_mem _ h)) k hk

/-- After `startSequence` the k-th call of `nextSequenceConversion` delivers the k-th
channel of the two sequences, again and again, also if the range is changed between. -/
theorem C274_sequence (a : Ad) (d : Dev) (before ops : List AdOp) (s1 s2 : BitVec 8) (hc : channels (s1 ++ s2) ≠ [])
    (hop : ∀ o ∈ ops, o = .next ∨ ∃ e, o = .range e) (k : Nat)
    (hk : k < (nexts (callAd (before.foldl callAd (callAd (a, d) .init)) (.start s1 s2)) ops).length) :
    (nexts (callAd (before.foldl callAd (callAd (a, d) .init)) (.start s1 s2)) ops)[k]? =
      some (some ((channels (s1 ++ s2))[k % (channels (s1 ++ s2)).length]?)) := by
  obtain ⟨h, h1, h2, h3, h4⟩ := agree_start _ (agree_run before _ (agree_init a d)) s1 s2
  have := nexts_run _ hc ops _ h h1 h3 h4 hop k hk
  rw [this, h2, Nat.zero_add]

example : nexts (callAd (callAd (adNew, ⟨5#3, false, false, none, 3⟩) .init) (.start 0xa0#8 0x01#8)) [.next, .range true, .next, .next, .next] =
    [some (some 0#3), some (some 2#3), some (some 7#3), some (some 0#3)] := by decide +kernel

/-- With the automatic shutdown set before `nextSequenceConversion` the second call
makes no transfer and delivers the data of the first again. -/
theorem C274_auto_counterexample (a : Ad) (d : Dev) (s1 s2 : BitVec 8) :
    answer (callAd (callAd (callAd (callAd (a, d) .init) (.start s1 s2)) (.auto true)) .next) .next = none := by
  have hA := agree_call _ (agree_call _ (agree_init a d) (.start s1 s2)) (.auto true)
  obtain ⟨h, h1, h2, h3, h4⟩ := agree_start _ (agree_init a d) s1 s2
  obtain ⟨hA', hn⟩ := agree_next _ hA
  have hp : (bits (callAd (callAd (callAd (a, d) .init) (.start s1 s2)) (.auto true)).1.config).pm = 1#2 := by
    show (bits (setPower (callAd (callAd (a, d) .init) (.start s1 s2)).1.config 1#2)).pm = 1#2
    rw [bits_power]
  obtain ⟨n1, n2, n3, n4⟩ := hn h3
  rw [hp] at n3
  simp only [answer, adOp, n3, ne_eq, show ¬ (1#2 = 3#2) from by decide, not_false_eq_true, if_true, send]

/-- Waking from the full shutdown, and starting a sequence, turn the automatic shutdown
off for good. -/
theorem C274_lost_counterexample (a : Ad) (s1 s2 : BitVec 8) (c : BitVec 3) :
    (bits (adOp (adOp (adOp a (.auto true)).1 .shutdown).1 (.single c)).1.config).pm = 3#2 ∧
      (bits (adOp (adOp a (.auto true)).1 (.start s1 s2)).1.config).pm = 3#2 := by
  constructor
  · simp [adOp, bits_channel, bits_power]
  · simp only [adOp]
    split
    · simp [bits_seq1, bits_power]
    · split <;> simp [bits_seq1, bits_power]

end Props.AdcDrivers
