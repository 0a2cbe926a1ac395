import Verif.Model.SpiRam

set_option autoImplicit false

namespace Props.SpiRam
open Model.SpiRam

/-! ### Specification -/

/-- The memory after writing some bytes from an address on. -/
def written (mem : BitVec 15 → BitVec 8) (a : BitVec 15) (data : List (BitVec 8)) : BitVec 15 → BitVec 8 :=
  fun x => (data[(x - a).toNat]?).getD (mem x)

/-- Between commands. -/
def Idle (c : Chip) : Prop := c.selected = false ∧ c.held = false

/-- A part of a transfer: bytes to be written, or suspended with other bytes on the bus. -/
inductive Part where
  | bytes (bs : List (BitVec 8))
  | held (others : List (BitVec 8))

def doPart (c : Chip) : Part → Chip
  | .bytes bs => write c bs
  | .held os => resume (write (suspend c) os)

def payload : List Part → List (BitVec 8)
  | [] => []
  | .bytes bs :: r => bs ++ payload r
  | .held _ :: r => payload r

theorem start_eq (c : Chip) (h : Idle c) (address : BitVec 16) :
    startRead c address = ⟨true, false, some 3#8, some ((address >>> 8).setWidth 8), some (address.setWidth 15), c.mem⟩ ∧
    startWrite c address = ⟨true, false, some 2#8, some ((address >>> 8).setWidth 8), some (address.setWidth 15), c.mem⟩ := by
  obtain ⟨h1, h2⟩ := h
  have e : (((address >>> 8).setWidth 8) ++ ((address &&& 0xff#16).setWidth 8) : BitVec 16) = address := by
    apply BitVec.eq_of_getLsbD_eq
    intro i hi
    rw [BitVec.getLsbD_append]
    have table : ∀ i < 8, (255#16).getLsbD i = true := by decide
    by_cases l : i < 8
    · have m := table i l
      simp [l]
      intro _
      rw [BitVec.getLsbD_eq_getElem hi] at m
      exact m
    · have : 8 + (i - 8) = i := by omega
      have l2 : i - 8 < 8 := by omega
      simp [l, this, l2]
  have e' : (BitVec.setWidth 8 (address >>> 8) ++ (BitVec.setWidth 8 address &&& 255#8) : BitVec 16) = address := by
    simpa using e
  refine ⟨?_, ?_⟩
  · simp [startRead, csReset, h1, h2, exchange, READ, e']
  · simp [startWrite, csReset, h1, h2, exchange, WRITE, e']

/-- A chip that is writing. -/
def writing (h : BitVec 8) (a : BitVec 15) (mem : BitVec 15 → BitVec 8) : Chip := ⟨true, false, some 2#8, some h, some a, mem⟩

def reading (h : BitVec 8) (a : BitVec 15) (mem : BitVec 15 → BitVec 8) : Chip := ⟨true, false, some 3#8, some h, some a, mem⟩

def store (mem : BitVec 15 → BitVec 8) (a : BitVec 15) : List (BitVec 8) → (BitVec 15 → BitVec 8)
  | [] => mem
  | b :: bs => store (Function.update mem a b) (a + 1#15) bs

theorem write_writing (h : BitVec 8) (bs : List (BitVec 8)) : ∀ a mem,
    write (writing h a mem) bs = writing h (a + BitVec.ofNat 15 bs.length) (store mem a bs) := by
  induction bs with
  | nil => intro a mem; simp [write, store]
  | cons b bs ih =>
    intro a mem
    have st : (exchange (writing h a mem) b).1 = writing h (a + 1#15) (Function.update mem a b) := by simp [exchange, writing]
    simp only [write, store]
    rw [st, ih, List.length_cons]
    congr 1
    apply BitVec.eq_of_toNat_eq
    simp only [BitVec.toNat_add, BitVec.toNat_ofNat]
    omega

theorem store_append (bs cs : List (BitVec 8)) : ∀ mem a, store mem a (bs ++ cs) = store (store mem a bs) (a + BitVec.ofNat 15 bs.length) cs := by
  induction bs with
  | nil => intro mem a; simp [store]
  | cons b bs ih =>
    intro mem a
    simp only [List.cons_append, store, List.length_cons]
    rw [ih]
    congr 1
    apply BitVec.eq_of_toNat_eq
    simp only [BitVec.toNat_add, BitVec.toNat_ofNat]
    omega

theorem write_held (c : Chip) (hh : c.held = true) (os : List (BitVec 8)) : write c os = c := by
  induction os with
  | nil => rfl
  | cons o os ih =>
    simp only [write]
    have : (exchange c o).1 = c := by simp [exchange, hh]
    rw [this, ih]

theorem parts_writing (h : BitVec 8) (ps : List Part) : ∀ a mem,
    ps.foldl doPart (writing h a mem) = writing h (a + BitVec.ofNat 15 (payload ps).length) (store mem a (payload ps)) := by
  induction ps with
  | nil => intro a mem; simp [payload, store]
  | cons p ps ih =>
    intro a mem
    cases p with
    | bytes bs =>
      simp only [List.foldl_cons, doPart, payload]
      rw [write_writing, ih, store_append]
      congr 1
      apply BitVec.eq_of_toNat_eq
      simp only [BitVec.toNat_add, BitVec.toNat_ofNat, List.length_append]
      omega
    | held os =>
      simp only [List.foldl_cons, doPart, payload]
      rw [write_held _ (by simp [suspend])]
      have : resume (suspend (writing h a mem)) = writing h a mem := by simp [resume, suspend, writing]
      rw [this, ih]

theorem store_eq (bs : List (BitVec 8)) : ∀ mem a, bs.length ≤ 2 ^ 15 → store mem a bs = written mem a bs := by
  induction bs with
  | nil => intro mem a _; funext x; simp [store, written]
  | cons b bs ih =>
    intro mem a hl
    have hl' : bs.length + 1 ≤ 32768 := by simpa using hl
    simp only [store]
    rw [ih _ _ (by omega)]
    funext x
    unfold written
    by_cases xa : x = a
    · subst xa
      have z : (x - (x + 1#15)).toNat = 32767 := by
        simp only [BitVec.toNat_sub, BitVec.toNat_add, BitVec.toNat_ofNat]
        have := x.isLt
        omega
      rw [z, List.getElem?_eq_none (by omega)]
      simp
    · have ne : x.toNat ≠ a.toNat := fun e => xa (BitVec.eq_of_toNat_eq e)
      have z : (x - a).toNat = (x - (a + 1#15)).toNat + 1 := by
        simp only [BitVec.toNat_sub, BitVec.toNat_add, BitVec.toNat_ofNat]
        have := x.isLt
        have := a.isLt
        omega
      rw [z, List.getElem?_cons_succ, Function.update_of_ne xa]

/-- C358: for all contents, addresses and up to 32768 bytes of data, with suspensions at all places and all bytes for other devices
meanwhile: after writing, the bytes from the (15 bit) address on are the data, all others are unchanged, and the chip is released.
Without suspensions, this is `writeData()`. -/
theorem C358_write (c : Chip) (h : Idle c) (address : BitVec 16) (ps : List Part) (hl : (payload ps).length ≤ 2 ^ 15) :
    (finish (ps.foldl doPart (startWrite c address))).mem = written c.mem (address.setWidth 15) (payload ps) ∧
    Idle (finish (ps.foldl doPart (startWrite c address))) ∧
    ∀ data, writeData c address data = finish ([Part.bytes data].foldl doPart (startWrite c address)) := by
  have s := (start_eq c h address).2
  have w := parts_writing ((address >>> 8).setWidth 8) ps (address.setWidth 15) c.mem
  have s' : startWrite c address = writing ((address >>> 8).setWidth 8) (address.setWidth 15) c.mem := s
  refine ⟨?_, ?_, ?_⟩
  · rw [s', w, ← store_eq _ _ _ hl]
    rfl
  · rw [s', w]
    exact ⟨rfl, rfl⟩
  · intro data
    rfl

theorem read_reading (h : BitVec 8) (n : Nat) : ∀ a mem,
    read (reading h a mem) n = (reading h (a + BitVec.ofNat 15 n) mem, (List.range n).map (fun i => mem (a + BitVec.ofNat 15 i))) := by
  induction n with
  | zero => intro a mem; simp [Model.SpiRam.read]
  | succ n ih =>
    intro a mem
    have st : exchange (reading h a mem) 0#8 = (reading h (a + 1#15) mem, mem a) := by simp [exchange, reading]
    have ad : ∀ i, a + 1#15 + BitVec.ofNat 15 i = a + BitVec.ofNat 15 (i + 1) := by
      intro i
      apply BitVec.eq_of_toNat_eq
      simp only [BitVec.toNat_add, BitVec.toNat_ofNat]
      omega
    simp only [Model.SpiRam.read]
    rw [st]
    simp only
    rw [ih, ad, List.range_succ_eq_map]
    simp [ad]

/-- C359: reading returns the bytes from the (15 bit) address on, changes nothing and releases the chip; so writing and reading the same address
returns the data. -/
theorem C359_read (c : Chip) (h : Idle c) (address : BitVec 16) :
    (∀ n, (readData c address n).2 = (List.range n).map (fun i => c.mem (address.setWidth 15 + BitVec.ofNat 15 i)) ∧
      (readData c address n).1.mem = c.mem ∧ Idle (readData c address n).1) ∧
    ∀ data : List (BitVec 8), data.length ≤ 2 ^ 15 → (readData (writeData c address data) address data.length).2 = data := by
  have key : ∀ c, Idle c → ∀ n, (readData c address n).2 = (List.range n).map (fun i => c.mem (address.setWidth 15 + BitVec.ofNat 15 i)) ∧
      (readData c address n).1.mem = c.mem ∧ Idle (readData c address n).1 := by
    intro c h n
    have s : startRead c address = reading ((address >>> 8).setWidth 8) (address.setWidth 15) c.mem := (start_eq c h address).1
    unfold readData
    rw [s, read_reading]
    exact ⟨rfl, rfl, rfl, rfl⟩
  refine ⟨key c h, ?_⟩
  intro data hl
  have pl : payload [Part.bytes data] = data := by simp [payload]
  obtain ⟨w1, w2, w3⟩ := C358_write c h address [Part.bytes data] (by rw [pl]; exact hl)
  rw [← w3 data] at w1 w2
  rw [(key _ w2 data.length).1, w1, pl]
  apply List.ext_getElem?
  intro i
  by_cases hi : i < data.length
  · have z : (address.setWidth 15 + BitVec.ofNat 15 i - address.setWidth 15 : BitVec 15).toNat = i := by
      simp only [BitVec.toNat_sub, BitVec.toNat_add, BitVec.toNat_ofNat]
      have := (address.setWidth 15).isLt
      omega
    simp only [List.getElem?_map, List.getElem?_range hi, Option.map_some, written]
    rw [z, List.getElem?_eq_getElem hi]
    rfl
  · rw [List.getElem?_eq_none (by simpa using hi), List.getElem?_eq_none (by omega)]

/-- Case: three bytes around the end of the memory, suspended after the first. -/
example : let c : Chip := ⟨false, false, none, none, none, fun _ => 0#8⟩
    (readData (finish ([Part.bytes [1#8], .held [9#8, 2#8], .bytes [7#8, 8#8]].foldl doPart (startWrite c 0x7fff#16))) 0x7ffe#16 5).2 =
      [0#8, 1#8, 7#8, 8#8, 0#8] := by decide

end Props.SpiRam
