import Verif.Spec.Eeprom
import Mathlib.Tactic.IntervalCases
/-
Claims C177 and C178 about the drivers of I2C EEPROMs.
-/
set_option autoImplicit false
namespace Props.Eeprom
open Modm.Eeprom Spec.Eeprom

/-! ## Transactions -/

private theorem fetch_all (t : Adapter) (l : List Byte) : t.fetch (.bytes l) l.length = some l := by simp [Adapter.fetch]

private theorem fetch_address (t : Adapter) : t.fetch .addressBuffer t.addressBuffer.length = some t.addressBuffer := by simp [Adapter.fetch]

private theorem address_len (wide : Bool) (a : BitVec 16) : (addressBytes wide a).length = if wide then 2 else 1 := by
  cases wide <;> rfl

private theorem transfer_write (wide : Bool) (t : Adapter) (a : BitVec 16) (data : List Byte) (h : data ≠ []) :
    transfer (t.configureWrite wide a (.bytes data) data.length) =
      some (.start t.address false :: ((addressBytes wide a ++ data).map Bus.write ++ [.stop])) := by
  have hl : data.length ≠ 0 := by simpa using h
  simp [transfer, loop, Adapter.starting, Adapter.configureWrite, Adapter.configureWriteRead, hl, Adapter.writing, Adapter.fetch]

private theorem transfer_write_nil (wide : Bool) (t : Adapter) (a : BitVec 16) :
    transfer (t.configureWrite wide a (.bytes []) ([] : List Byte).length) = some [.start t.address false, .stop] := by
  simp [transfer, loop, Adapter.starting, Adapter.configureWrite, Adapter.configureWriteRead]

private theorem transfer_read (wide : Bool) (t : Adapter) (a : BitVec 16) (n : Nat) (h : n ≠ 0) :
    transfer (t.configureRead wide a n) =
      some (.start t.address false :: ((addressBytes wide a).map Bus.write ++ [.start t.address true, .read n, .stop])) := by
  cases wide <;>
  simp [transfer, loop, Adapter.starting, Adapter.configureRead, Adapter.configureWriteRead, h, Adapter.writing, Adapter.fetch, addressBytes]

private theorem transfer_read_nil (wide : Bool) (t : Adapter) (a : BitVec 16) :
    transfer (t.configureRead wide a 0) = some (.start t.address false :: ((addressBytes wide a).map Bus.write ++ [.stop])) := by
  cases wide <;>
  simp [transfer, loop, Adapter.starting, Adapter.configureRead, Adapter.configureWriteRead, Adapter.writing, Adapter.fetch, addressBytes]

/-! ## The bus -/

private theorem serve_writes (ds : Devices) (a : Nat) (l : List Byte) (es : List Bus) : ∀ bs,
    serve ds (.writing a bs) (l.map Bus.write ++ es) = serve ds (.writing a (bs ++ l)) es := by
  induction l with
  | nil => intro bs; simp
  | cons b l ih => intro bs; simp only [List.map_cons, List.cons_append, serve, ih, List.append_assoc, List.nil_append]

private theorem serve_write (ds : Devices) (addr : Byte) (d : Device) (h : ds (addr >>> 1).toNat = some d) (l : List Byte) :
    serve ds .idle (.start addr false :: (l.map Bus.write ++ [.stop])) =
      ((fun x => if x = (addr >>> 1).toNat then some (d.message l) else ds x), [], true) := by
  simp only [serve, finish, h, Bool.false_eq_true, if_false]
  rw [serve_writes]
  simp only [serve, finish, h, List.nil_append, Option.map_some]

private theorem serve_read (ds : Devices) (addr : Byte) (d : Device) (h : ds (addr >>> 1).toNat = some d) (l : List Byte) (n : Nat) :
    serve ds .idle (.start addr false :: (l.map Bus.write ++ [.start addr true, .read n, .stop])) =
      (let d' := d.message l
      (fun x => if x = (addr >>> 1).toNat then some { d' with pointer := (d'.pointer + n) % d'.size } else ds x,
        (List.range n).map (fun k => d'.mem ((d'.pointer + k) % d'.size)), true)) := by
  simp only [serve, finish, h, Bool.false_eq_true, if_false]
  rw [serve_writes]
  simp only [serve, finish, h, List.nil_append, Option.map_some, if_true, List.append_nil]
  congr 1
  funext x
  by_cases hx : x = (addr >>> 1).toNat
  · simp [hx]
  · simp only [if_neg hx]

private theorem program_written (data : List Byte) : ∀ (mem : Nat → Byte) (page base offset : Nat), offset + data.length ≤ page →
    program mem page base offset data = written mem (base + offset) data := by
  induction data with
  | nil => intro mem page base offset _; funext x; simp [program, written]
  | cons b data ih =>
    intro mem page base offset h
    simp only [List.length_cons] at h
    rw [program, ih _ _ _ _ (by omega)]
    funext x
    have ho : offset % page = offset := Nat.mod_eq_of_lt (by omega)
    simp only [written, ho]
    by_cases hx : x = base + offset
    · subst hx
      rw [if_neg (by omega), if_pos (le_refl _), if_pos rfl]
      simp
    · by_cases hb : base + offset ≤ x
      · rw [if_pos (by omega), if_pos hb, if_neg hx]
        have : x - (base + offset) = (x - (base + (offset + 1))) + 1 := by omega
        rw [this]; simp
      · rw [if_neg (by omega), if_neg hx, if_neg hb]

private theorem address16 (a : BitVec 16) : (a >>> 8 |>.setWidth 8 : Byte).toNat * 256 + (a.setWidth 8 : Byte).toNat = a.toNat := by
  have := a.isLt
  simp only [BitVec.toNat_setWidth, BitVec.toNat_ushiftRight, Nat.shiftRight_eq_div_pow]
  omega

private theorem message_wide (d : Device) (hw : d.wide = true) (a : BitVec 16) (ha : a.toNat < d.size) (data : List Byte)
    (hp : a.toNat % d.page + data.length ≤ d.page) :
    d.message (addressBytes true a ++ data) = { d with pointer := a.toNat, mem := written d.mem a.toNat data } := by
  unfold Device.message
  rw [hw]
  simp only [addressBytes, if_true, List.cons_append, List.nil_append]
  rw [address16, Nat.mod_eq_of_lt ha, program_written _ _ _ _ _ hp, Nat.div_add_mod']

private theorem message_narrow (d : Device) (hw : d.wide = false) (a : BitVec 16) (ha : a.toNat < d.size) (h256 : a.toNat < 256) (data : List Byte)
    (hp : a.toNat % d.page + data.length ≤ d.page) :
    d.message (addressBytes false a ++ data) = { d with pointer := a.toNat, mem := written d.mem a.toNat data } := by
  unfold Device.message
  rw [hw]
  have h8 : (a.setWidth 8 : Byte).toNat = a.toNat := by rw [BitVec.toNat_setWidth]; exact Nat.mod_eq_of_lt h256
  simp only [addressBytes, Bool.false_eq_true, if_false, List.cons_append, List.nil_append]
  rw [h8, Nat.mod_eq_of_lt ha, program_written _ _ _ _ _ hp, Nat.div_add_mod']

private theorem written_nil (mem : Nat → Byte) (a : Nat) : written mem a [] = mem := by funext x; simp [written]

/-! ## The choice of the device -/

/-- The driver was made for the device with address `base`; the last access may have been to the other half. -/
def For (t : Adapter) (base : Byte) : Prop := t.getAddress = base ∨ t.getAddress = base ||| 4#8

/-- The driver as it is made. -/
private def made (address : Byte) : Adapter := ⟨address <<< 1, 0, 0, .null, false, [0#8, 0#8], false⟩

private theorem bit16 (A : BitVec 32) (h : A.toNat < 0x20000) : A &&& 0x10000#32 ≠ 0#32 ↔ 0x10000 ≤ A.toNat := by
  have h1 : (A &&& 0x10000#32).toNat = (A.toNat.testBit 16).toNat * 2 ^ 16 := by
    rw [BitVec.toNat_and]
    show A.toNat &&& 2 ^ 16 = _
    apply Nat.eq_of_testBit_eq
    intro i
    rw [Nat.testBit_and, Nat.testBit_two_pow]
    by_cases hi : 16 = i
    · subst hi
      cases A.toNat.testBit 16 <;> decide
    · cases A.toNat.testBit 16 <;> simp [hi]
      exact (Nat.testBit_two_pow_of_ne hi)
  have h2 : A.toNat.testBit 16 = decide (A.toNat / 2 ^ 16 % 2 = 1) := Nat.testBit_eq_decide_div_mod_eq
  rw [Ne, ← BitVec.toNat_inj, h1, h2]
  by_cases hA : 0x10000 ≤ A.toNat
  · have : A.toNat / 2 ^ 16 % 2 = 1 := by omega
    rw [decide_eq_true this]; simp [hA]
  · have : ¬A.toNat / 2 ^ 16 % 2 = 1 := by omega
    rw [decide_eq_false this]; simp [hA]

private theorem select_address (t : Adapter) (base : Byte) (h7 : base.toNat < 128) (h2 : base &&& 4#8 = 0#8) (h : For t base)
    (A : BitVec 32) (hA : A.toNat < 0x20000) :
    ((select true t A).address >>> 1).toNat = base.toNat + (if 0x10000 ≤ A.toNat then 4 else 0) ∧ For (select true t A) base := by
  have k1 : ∀ b : BitVec 8, b.toNat < 128 → b &&& 4#8 = 0#8 → (((b ||| 4#8) <<< 1) >>> 1) = b ||| 4#8 ∧ (b ||| 4#8).toNat = b.toNat + 4 ∧
      ((b ||| 4#8) ||| 4#8) = b ||| 4#8 ∧ ((b ||| 4#8) &&& ~~~4#8) = b ∧ (b &&& ~~~4#8) = b ∧ ((b <<< 1) >>> 1) = b := by decide
  obtain ⟨e1, e2, e3, e4, e5, e6⟩ := k1 base h7 h2
  simp only [For, Adapter.getAddress, select, if_true, Adapter.setAddress] at *
  by_cases hb : 0x10000 ≤ A.toNat
  · rw [if_pos ((bit16 A hA).2 hb), if_pos hb]
    rcases h with h | h
    · simp only [h]; exact ⟨by rw [e1, e2], .inr e1⟩
    · simp only [h]; rw [e3]; exact ⟨by rw [e1, e2], .inr e1⟩
  · rw [if_neg (fun hh => hb ((bit16 A hA).1 hh)), if_neg hb]
    rcases h with h | h
    · simp only [h]; rw [e5]; exact ⟨by rw [e6]; rfl, .inl e6⟩
    · simp only [h]; rw [e4]; exact ⟨by rw [e6]; rfl, .inl e6⟩

private theorem low16 (A : BitVec 32) : (A.setWidth 16 : BitVec 16).toNat = A.toNat % 0x10000 := by rw [BitVec.toNat_setWidth]

/-- **C177, for data within a page.**  Writing to an EEPROM with addresses of two bytes: the bytes are in the device with the
address `base`, or `base + 4` for addresses from 65536 on, and nothing else is changed on the bus, whatever the driver did before.
`base` must not have bit 2. -/
theorem C177_write_partial (t : Adapter) (base : Byte) (h7 : base.toNat < 128) (h2 : base &&& 4#8 = 0#8) (h : For t base) (ds : Devices) (d : Device)
    (A : BitVec 32) (hA : A.toNat < 0x20000) (data : List Byte)
    (hd : ds (base.toNat + (if 0x10000 ≤ A.toNat then 4 else 0)) = some d) (hw : d.wide = true) (hs : A.toNat % 0x10000 < d.size)
    (hp : A.toNat % 0x10000 % d.page + data.length ≤ d.page) :
    ∃ tr, transfer (write true t A (.bytes data) data.length) = some tr ∧
      (let r := serve ds .idle tr
      Becomes ds r.1 (base.toNat + (if 0x10000 ≤ A.toNat then 4 else 0)) d (written d.mem (A.toNat % 0x10000) data) ∧ r.2 = ([], true)) ∧
      For (write true t A (.bytes data) data.length) base := by
  obtain ⟨e1, e2⟩ := select_address t base h7 h2 h A hA
  have hd' : ds ((select true t A).address >>> 1).toNat = some d := by rw [e1]; exact hd
  by_cases hn : data = []
  · subst hn
    refine ⟨_, transfer_write_nil _ _ _, ?_, e2⟩
    have := serve_write ds (select true t A).address d hd' []
    simp only [List.map_nil, List.nil_append] at this
    simp only [this]
    refine ⟨⟨⟨d.message [], by rw [e1]; simp, ?_⟩, fun x hx => by rw [e1]; simp [hx]⟩, trivial⟩
    rw [written_nil]
    simp [Device.message, Device.Same]
  · refine ⟨_, transfer_write _ _ _ _ hn, ?_, e2⟩
    simp only
    rw [serve_write ds (select true t A).address d hd']
    refine ⟨⟨⟨_, by rw [e1]; simp only [if_true]; rfl, ?_⟩, fun x hx => by rw [e1]; simp [hx]⟩, rfl⟩
    rw [message_wide d hw _ (by rw [low16]; exact hs) data (by rw [low16]; exact hp), low16]
    exact ⟨rfl, rfl, rfl, rfl⟩

/-- **C177, for reads that do not pass the end of the device.**  Reading returns the contents and does not change them. -/
theorem C177_read_partial (t : Adapter) (base : Byte) (h7 : base.toNat < 128) (h2 : base &&& 4#8 = 0#8) (h : For t base) (ds : Devices) (d : Device)
    (A : BitVec 32) (hA : A.toNat < 0x20000) (n : Nat)
    (hd : ds (base.toNat + (if 0x10000 ≤ A.toNat then 4 else 0)) = some d) (hw : d.wide = true) (hpage : 0 < d.page)
    (hs : A.toNat % 0x10000 < d.size) (hn : A.toNat % 0x10000 + n ≤ d.size) :
    ∃ tr, transfer (read true t A n) = some tr ∧
      (let r := serve ds .idle tr
      Becomes ds r.1 (base.toNat + (if 0x10000 ≤ A.toNat then 4 else 0)) d d.mem ∧
      r.2 = ((List.range n).map (fun k => d.mem (A.toNat % 0x10000 + k)), true)) ∧
      For (read true t A n) base := by
  obtain ⟨e1, e2⟩ := select_address t base h7 h2 h A hA
  have hd' : ds ((select true t A).address >>> 1).toNat = some d := by rw [e1]; exact hd
  have hm : d.message (addressBytes true (A.setWidth 16)) = { d with pointer := A.toNat % 0x10000 } := by
    have := message_wide d hw (A.setWidth 16) (by rw [low16]; exact hs) [] (by rw [low16]; exact Nat.le_of_lt (Nat.mod_lt _ hpage))
    rw [List.append_nil, low16, written_nil] at this
    exact this
  have hme : (read true t A n) = (select true t A).configureRead true (A.setWidth 16) n := rfl
  by_cases h0 : n = 0
  · subst h0
    refine ⟨_, transfer_read_nil _ _ _, ?_, e2⟩
    simp only
    rw [serve_write ds (select true t A).address d hd']
    refine ⟨⟨⟨_, by rw [e1]; simp only [if_true]; rfl, ?_⟩, fun x hx => by rw [e1]; simp [hx]⟩, rfl⟩
    rw [hm]
    exact ⟨rfl, rfl, rfl, rfl⟩
  · refine ⟨_, transfer_read _ _ _ _ h0, ?_, e2⟩
    simp only
    rw [serve_read ds (select true t A).address d hd', hm]
    refine ⟨⟨⟨_, by rw [e1]; simp; rfl, ?_⟩, fun x hx => by rw [e1]; simp [hx]⟩, ?_⟩
    · exact ⟨rfl, rfl, rfl, rfl⟩
    · simp only [Prod.mk.injEq, and_true]
      apply List.map_congr_left
      intro k hk
      rw [Nat.mod_eq_of_lt (by have := List.mem_range.1 hk; omega)]

/-- A 24FC1025 at 0x50: a page of its second half is written and read back. -/
private def big : Device := ⟨true, 128, 65536, fun _ => 0xff#8, 0⟩
example : For (made 0x50#8) 0x50#8 ∧ (0x50#8).toNat < 128 ∧ 0x50#8 &&& 4#8 = 0#8 ∧
    ((fun x => if x = 0x50 ∨ x = 0x54 then some big else none : Devices) (0x50 + (if 0x10000 ≤ (0x10080#32).toNat then 4 else 0))).isSome = true ∧
    (0x10080#32).toNat % 0x10000 % big.page + 100 ≤ big.page := by
  refine ⟨.inl (by decide), by decide, by decide, by decide, by decide⟩

/-- A device of 32 KiB at an address, with pages of 64 bytes. -/
private def c256 : Device := ⟨true, 64, 32768, fun _ => 0xff#8, 0⟩

/-- **C177, refuted** for data that reach over the end of a page: the driver does not split them, and the device writes the rest to the
beginning of the page. -/
theorem C177_page_counterexample :
    (transfer (write true (made 0x50) 62 (.bytes [1, 2, 3, 4]) 4)).map (fun tr =>
      ((serve (fun x => if x = 0x50 then some c256 else none) .idle tr).1 0x50).map fun d => [d.mem 62, d.mem 63, d.mem 64, d.mem 65, d.mem 0, d.mem 1]) =
      some (some [1, 2, 0xff, 0xff, 3, 4]) := by
  decide +kernel

/-- **C177, refuted** for a device whose third address pin is high: the driver clears the bit and writes to another device. -/
theorem C177_address_counterexample :
    (transfer (write true (made 0x54) 0 (.bytes [1]) 1)).map (fun tr =>
      let r := serve (fun x => if x = 0x50 ∨ x = 0x54 then some c256 else none) .idle tr
      ((r.1 0x50).map fun d => d.mem 0, (r.1 0x54).map fun d => d.mem 0, r.2.2)) = some (some 1, some 0xff, true) := by
  decide +kernel

/-- **C177, refuted** for values: `write(address, value)` takes an address of 32 bits, `read(address, value)` one of 16.  A value
written to the second half of a 24FC1025 is read from the first. -/
theorem C177_value_counterexample :
    (transfer (writeValue true (made 0x50) 0x10000 [1, 2])).bind (fun tr =>
      let r := serve (fun x => if x = 0x50 ∨ x = 0x54 then some big else none) .idle tr
      (transfer (readValue true (writeValue true (made 0x50) 0x10000 [1, 2]) 0x10000 2)).map fun tr' => (serve r.1 .idle tr').2) =
      some ([0xff, 0xff], true) := by
  decide +kernel

/-- **C177, refuted** for `writeByte` with a master that works with interrupts: it reads a parameter of a function that has
returned.  With one that works at once `writeByte` is `write` of one byte. -/
theorem C177_byte_counterexample (t : Adapter) (A : BitVec 32) (b : Byte) :
    transfer (writeByte true false t A b) = none ∧ writeByte true true t A b = write true t A (.bytes [b]) [b].length := by
  constructor
  · simp [writeByte, write, transfer, loop, Adapter.starting, Adapter.configureWrite, Adapter.configureWriteRead, Adapter.writing, Adapter.fetch]
  · rfl

/-! ## AT24MAC402 -/

private theorem select_narrow (t : Adapter) (A : BitVec 32) : ((select false t A).address >>> 1) = t.address >>> 1 := by
  have k : ∀ b : BitVec 8, ((b >>> 1) <<< 1) >>> 1 = b >>> 1 := by decide
  exact k t.address

private theorem shifted (b : Byte) (h : b.toNat < 128) : (b <<< 1) >>> 1 = b := by
  revert b; decide

/-- The address `setAddress` has made of the one of the user. -/
private theorem mac_addresses (a : Byte) :
    ((a &&& 0b111#8) ||| 0b1010000#8).toNat = 0x50 + a.toNat % 8 ∧ (((a &&& 0b111#8) ||| 0b1010000#8) ||| 0b1000#8).toNat = 0x58 + a.toNat % 8 := by
  revert a; decide

/-- **C178.** After `setAddress(a)` and any other calls the driver talks to the EEPROM at `0x50 + a % 8` -/
theorem C178_address (m : Mac) (a : Byte) (calls : List MacCall) (h : ∀ b, MacCall.setAddress b ∉ calls) :
    (calls.foldl Mac.call (m.setAddress a)).address_.toNat = 0x50 + a.toNat % 8 := by
  have key : ∀ (calls : List MacCall) (m : Mac), (∀ b, MacCall.setAddress b ∉ calls) → (calls.foldl Mac.call m).address_ = m.address_ := by
    intro calls
    induction calls with
    | nil => intro m _; rfl
    | cons c cs ih =>
      intro m h
      rw [List.foldl_cons, ih _ (fun b hb => h b (List.mem_cons_of_mem _ hb))]
      cases c with
      | setAddress b => exact absurd (List.mem_cons_self) (h b)
      | _ => rfl
  rw [key calls _ h]
  exact (mac_addresses a).1

private theorem or8 (b : Byte) (k : Nat) (hk : k < 8) (h : b.toNat = 0x50 + k) : (b ||| 0b1000#8).toNat = 0x58 + k ∧ (b ||| 0b1000#8).toNat < 128 := by
  have : ∀ b : Byte, 0x50 ≤ b.toNat → b.toNat < 0x58 → (b ||| 0b1000#8).toNat = b.toNat + 8 := by decide
  have := this b (by omega) (by omega)
  omega

private theorem narrow_read (t : Adapter) (base : Byte) (hb : base.toNat < 128) (A : BitVec 32) (n : Nat) (ds : Devices) (d : Device)
    (hd : ds base.toNat = some d) (hw : d.wide = false) (hsz : d.size = 256) (hpage : 0 < d.page) (hn : A.toNat + n ≤ 256) (hA : A.toNat < 256) :
    ∃ tr, transfer (read false (t.setAddress base) A n) = some tr ∧
      (let r := serve ds .idle tr
      Becomes ds r.1 base.toNat d d.mem ∧ r.2 = ((List.range n).map (fun k => d.mem (A.toNat + k)), true)) := by
  have e1 : ((select false (t.setAddress base) A).address >>> 1).toNat = base.toNat := by
    rw [select_narrow]; exact congrArg BitVec.toNat (shifted base hb)
  have hd' : ds ((select false (t.setAddress base) A).address >>> 1).toNat = some d := by rw [e1]; exact hd
  have l16 : (A.setWidth 16 : BitVec 16).toNat = A.toNat := by rw [low16]; exact Nat.mod_eq_of_lt (by omega)
  have hm : d.message (addressBytes false (A.setWidth 16)) = { d with pointer := A.toNat } := by
    have := message_narrow d hw (A.setWidth 16) (by rw [l16, hsz]; exact hA) (by rw [l16]; exact hA) [] (by rw [l16]; exact Nat.le_of_lt (Nat.mod_lt _ hpage))
    rw [List.append_nil, l16, written_nil] at this
    exact this
  by_cases h0 : n = 0
  · subst h0
    refine ⟨_, transfer_read_nil _ _ _, ?_⟩
    simp only
    rw [serve_write ds (select false (t.setAddress base) A).address d hd']
    refine ⟨⟨⟨_, by rw [e1]; simp only [if_true]; rfl, ?_⟩, fun x hx => by rw [e1]; simp [hx]⟩, rfl⟩
    rw [hm]
    exact ⟨rfl, rfl, rfl, rfl⟩
  · refine ⟨_, transfer_read _ _ _ _ h0, ?_⟩
    simp only
    rw [serve_read ds (select false (t.setAddress base) A).address d hd', hm]
    refine ⟨⟨⟨_, by rw [e1]; simp; rfl, ?_⟩, fun x hx => by rw [e1]; simp [hx]⟩, ?_⟩
    · exact ⟨rfl, rfl, rfl, rfl⟩
    · simp only [Prod.mk.injEq, and_true]
      apply List.map_congr_left
      intro k hk
      rw [Nat.mod_eq_of_lt (by have := List.mem_range.1 hk; omega)]

/-- **C178.** Reading the EEPROM, the MAC and the unique number: each from its own device, and from the right place, whatever was done before. -/
theorem C178_read (m : Mac) (a : Nat) (ha : a < 8) (h : m.address_.toNat = 0x50 + a) (ds : Devices) (d e : Device)
    (hd : ds (0x50 + a) = some d) (hwd : d.wide = false) (hsd : d.size = 256) (hpd : 0 < d.page)
    (he : ds (0x58 + a) = some e) (hwe : e.wide = false) (hse : e.size = 256) (hpe : 0 < e.page) :
    (∀ (A : BitVec 32) (n : Nat), A.toNat < 256 → A.toNat + n ≤ 256 → ∃ tr, transfer (m.read A n).base = some tr ∧
      (let r := serve ds .idle tr
      Becomes ds r.1 (0x50 + a) d d.mem ∧ r.2 = ((List.range n).map (fun k => d.mem (A.toNat + k)), true))) ∧
    (∃ tr, transfer m.readMac.base = some tr ∧
      (let r := serve ds .idle tr
      Becomes ds r.1 (0x58 + a) e e.mem ∧ r.2 = ((List.range 6).map (fun k => e.mem (0x9a + k)), true))) ∧
    (∃ tr, transfer m.readUniqueId.base = some tr ∧
      (let r := serve ds .idle tr
      Becomes ds r.1 (0x58 + a) e e.mem ∧ r.2 = ((List.range 16).map (fun k => e.mem (0x80 + k)), true))) := by
  obtain ⟨o1, o2⟩ := or8 m.address_ a ha h
  refine ⟨fun A n hA hn => ?_, ?_, ?_⟩
  · have := narrow_read m.base m.address_ (by omega) A n ds d (by rw [h]; exact hd) hwd hsd hpd hn hA
    rw [h] at this
    exact this
  · have := narrow_read m.base (m.address_ ||| 0b1000#8) o2 0x9a#32 6 ds e (by rw [o1]; exact he) hwe hse hpe (by decide) (by decide)
    rw [o1] at this
    exact this
  · have := narrow_read m.base (m.address_ ||| 0b1000#8) o2 0x80#32 16 ds e (by rw [o1]; exact he) hwe hse hpe (by decide) (by decide)
    rw [o1] at this
    exact this

/-- **C178, for data within a page.**  Writing the EEPROM. -/
theorem C178_write_partial (m : Mac) (a : Nat) (ha : a < 8) (h : m.address_.toNat = 0x50 + a) (ds : Devices) (d : Device)
    (hd : ds (0x50 + a) = some d) (hwd : d.wide = false) (hsd : d.size = 256)
    (A : BitVec 32) (hA : A.toNat < 256) (data : List Byte) (hp : A.toNat % d.page + data.length ≤ d.page) :
    ∃ tr, transfer (m.write A data).base = some tr ∧
      (let r := serve ds .idle tr
      Becomes ds r.1 (0x50 + a) d (written d.mem A.toNat data) ∧ r.2 = ([], true)) := by
  have hd1 : ds m.address_.toNat = some d := by rw [h]; exact hd
  have e1 : ((select false (m.base.setAddress m.address_) A).address >>> 1).toNat = m.address_.toNat := by
    rw [select_narrow]; exact congrArg BitVec.toNat (shifted _ (by omega))
  have hd' : ds ((select false (m.base.setAddress m.address_) A).address >>> 1).toNat = some d := by rw [e1]; exact hd1
  have l16 : (A.setWidth 16 : BitVec 16).toNat = A.toNat := by rw [low16]; exact Nat.mod_eq_of_lt (by omega)
  rw [← h]
  by_cases hn : data = []
  · subst hn
    refine ⟨_, transfer_write_nil _ _ _, ?_⟩
    have := serve_write ds (select false (m.base.setAddress m.address_) A).address d hd' []
    simp only [List.map_nil, List.nil_append] at this
    simp only [this]
    refine ⟨⟨⟨d.message [], by rw [e1]; simp, ?_⟩, fun x hx => by rw [e1]; simp [hx]⟩, trivial⟩
    rw [written_nil]
    simp [Device.message, Device.Same, hwd]
  · refine ⟨_, transfer_write _ _ _ _ hn, ?_⟩
    simp only
    rw [serve_write ds (select false (m.base.setAddress m.address_) A).address d hd']
    refine ⟨⟨⟨_, by rw [e1]; simp only [if_true]; rfl, ?_⟩, fun x hx => by rw [e1]; simp [hx]⟩, rfl⟩
    rw [message_narrow d hwd _ (by rw [l16, hsd]; exact hA) (by rw [l16]; exact hA) data (by rw [l16]; exact hp), l16]
    exact ⟨rfl, rfl, rfl, rfl⟩

example : ((Mac.mk (made 0) 0).setAddress 3).address_.toNat = 0x50 + 3 ∧ (3 : Nat) < 8 ∧
    (transfer ((Mac.mk (made 0) 0).setAddress 3).readMac.base) =
      some [.start 0xb6 false, .write 0x9a, .start 0xb6 true, .read 6, .stop] := by decide +kernel

end Props.Eeprom
