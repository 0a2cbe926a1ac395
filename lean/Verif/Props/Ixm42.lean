import Verif.Model.Ixm42

set_option autoImplicit false

namespace Props.Ixm42
open Model.Ixm42

/-! ### Specification: the packets of the data sheet -/

def bytes16 (v : BitVec 16) : List (BitVec 8) := [v.extractLsb' 0 8, v.extractLsb' 8 8]
def bytes48 (v : BitVec 16 × BitVec 16 × BitVec 16) : List (BitVec 8) := bytes16 v.1 ++ (bytes16 v.2.1 ++ bytes16 v.2.2)

def hasAccel (h : BitVec 8) : Bool := h.getLsbD 6
def hasGyro (h : BitVec 8) : Bool := h.getLsbD 5
def is20 (h : BitVec 8) : Bool := h.getLsbD 4
def hasTime (h : BitVec 8) : Bool := h.getLsbD 3 || h.getLsbD 2

/-- The bytes of a packet: header, acceleration, rotation, temperature (two bytes in packets with 20 bits, otherwise
one), time, extension. -/
def encode (p : Packet) : List (BitVec 8) :=
  p.header :: ((if hasAccel p.header then bytes48 p.accel else []) ++
    ((if hasGyro p.header then bytes48 p.gyro else []) ++
    ((if hasAccel p.header || hasGyro p.header then
        (if is20 p.header then bytes16 p.temp else [p.temp.extractLsb' 0 8]) else []) ++
    ((if hasTime p.header then bytes16 p.timestamp else []) ++
     (if is20 p.header then [p.extension.1, p.extension.2.1, p.extension.2.2] else [])))))

/-- What is known after a packet: its fields, and the old values of the fields that it does not have. -/
def update (old p : Packet) : Packet :=
  ⟨p.header, if hasAccel p.header then p.accel else old.accel, if hasGyro p.header then p.gyro else old.gyro,
   if hasAccel p.header || hasGyro p.header then
     (if is20 p.header then p.temp else old.temp.extractLsb' 8 8 ++ p.temp.extractLsb' 0 8) else old.temp,
   if hasTime p.header then p.timestamp else old.timestamp, if is20 p.header then p.extension else old.extension⟩

theorem get_drop {d t : List (BitVec 8)} {a : BitVec 8} {i : Nat} (h : d.drop i = a :: t) : d[i]? = some a ∧ d.drop (i + 1) = t := by
  constructor
  · have : (d.drop i)[0]? = some a := by rw [h]; rfl
    rw [List.getElem?_drop] at this
    simpa using this
  · have : (d.drop i).drop 1 = t := by rw [h]; rfl
    rw [List.drop_drop] at this
    exact this

theorem join (v : BitVec 16) : v.extractLsb' 8 8 ++ v.extractLsb' 0 8 = v := by
  apply BitVec.eq_of_getLsbD_eq
  intro i hi
  rw [BitVec.getLsbD_append]
  by_cases h : i < 8
  · simp [h]
  · have : 8 + (i - 8) = i := by omega
    have l : i - 8 < 8 := by omega
    simp [h, this, l]

theorem half_drop {d t : List (BitVec 8)} {v : BitVec 16} {i : Nat} (h : d.drop i = bytes16 v ++ t) :
    half d i = some v ∧ d.drop (i + 2) = t := by
  obtain ⟨a, b⟩ := get_drop (a := v.extractLsb' 0 8) (t := v.extractLsb' 8 8 :: t) h
  obtain ⟨c, e⟩ := get_drop b
  refine ⟨?_, e⟩
  simp only [half, a, c, join]

theorem three_drop {d t : List (BitVec 8)} {v : BitVec 16 × BitVec 16 × BitVec 16} {i : Nat} (h : d.drop i = bytes48 v ++ t) :
    three d i = some v ∧ d.drop (i + 6) = t := by
  unfold bytes48 at h
  rw [List.append_assoc, List.append_assoc] at h
  obtain ⟨a, b⟩ := half_drop h
  obtain ⟨c, e⟩ := half_drop b
  obtain ⟨f, g⟩ := half_drop e
  refine ⟨?_, g⟩
  simp only [three, a, c, f]

theorem takeAccel_drop (d t : List (BitVec 8)) (p : Packet) (v : BitVec 16 × BitVec 16 × BitVec 16) (i : Nat)
    (h : d.drop i = (if hasAccel p.header then bytes48 v else []) ++ t) :
    ∃ j, takeAccel d p i = some ({ p with accel := if hasAccel p.header then v else p.accel }, j) ∧ d.drop j = t ∧
      j = i + (if hasAccel p.header then bytes48 v else []).length := by
  unfold takeAccel
  cases e : hasAccel p.header with
  | true =>
    rw [e] at h
    obtain ⟨a, b⟩ := three_drop h
    have : p.header.getLsbD HEADER_ACCEL = true := e
    exact ⟨i + 6, by simp [this, a], b, rfl⟩
  | false =>
    rw [e] at h
    have : p.header.getLsbD HEADER_ACCEL = false := e
    exact ⟨i, by simp [this], h, rfl⟩

theorem takeGyro_drop (d t : List (BitVec 8)) (p : Packet) (v : BitVec 16 × BitVec 16 × BitVec 16) (i : Nat)
    (h : d.drop i = (if hasGyro p.header then bytes48 v else []) ++ t) :
    ∃ j, takeGyro d p i = some ({ p with gyro := if hasGyro p.header then v else p.gyro }, j) ∧ d.drop j = t ∧
      j = i + (if hasGyro p.header then bytes48 v else []).length := by
  unfold takeGyro
  cases e : hasGyro p.header with
  | true =>
    rw [e] at h
    obtain ⟨a, b⟩ := three_drop h
    have : p.header.getLsbD HEADER_GYRO = true := e
    exact ⟨i + 6, by simp [this, a], b, rfl⟩
  | false =>
    rw [e] at h
    have : p.header.getLsbD HEADER_GYRO = false := e
    exact ⟨i, by simp [this], h, rfl⟩

theorem takeTemp_drop (d t : List (BitVec 8)) (p : Packet) (v : BitVec 16) (i : Nat)
    (h : d.drop i = (if hasAccel p.header || hasGyro p.header then
      (if is20 p.header then bytes16 v else [v.extractLsb' 0 8]) else []) ++ t) :
    ∃ j, takeTemp d p i = some ({ p with temp := if hasAccel p.header || hasGyro p.header then (if is20 p.header then v else p.temp.extractLsb' 8 8 ++ v.extractLsb' 0 8) else p.temp }, j) ∧ d.drop j = t ∧
      j = i + (if hasAccel p.header || hasGyro p.header then (if is20 p.header then bytes16 v else [v.extractLsb' 0 8]) else []).length := by
  unfold takeTemp
  have q : (p.header.getLsbD HEADER_ACCEL || p.header.getLsbD HEADER_GYRO) = (hasAccel p.header || hasGyro p.header) := rfl
  have r : p.header.getLsbD HEADER_20 = is20 p.header := rfl
  rw [q, r]
  cases e : (hasAccel p.header || hasGyro p.header) with
  | true =>
    rw [e] at h
    cases f : is20 p.header with
    | true =>
      rw [f] at h
      obtain ⟨a, b⟩ := half_drop h
      exact ⟨i + 2, by simp [a], b, rfl⟩
    | false =>
      rw [f] at h
      obtain ⟨a, b⟩ := get_drop h
      exact ⟨i + 1, by simp [a], b, rfl⟩
  | false =>
    rw [e] at h
    exact ⟨i, by simp, h, rfl⟩

theorem takeTime_drop (d t : List (BitVec 8)) (p : Packet) (v : BitVec 16) (i : Nat)
    (h : d.drop i = (if hasTime p.header then bytes16 v else []) ++ t) :
    ∃ j, takeTime d p i = some ({ p with timestamp := if hasTime p.header then v else p.timestamp }, j) ∧ d.drop j = t ∧
      j = i + (if hasTime p.header then bytes16 v else []).length := by
  unfold takeTime
  have q : (p.header.getLsbD HEADER_TIMESTAMP_ODR || p.header.getLsbD HEADER_TIMESTAMP_FSYNC) = hasTime p.header := rfl
  rw [q]
  cases e : hasTime p.header with
  | true =>
    rw [e] at h
    obtain ⟨a, b⟩ := half_drop h
    exact ⟨i + 2, by simp [a], b, rfl⟩
  | false =>
    rw [e] at h
    exact ⟨i, by simp, h, rfl⟩

theorem takeExtension_drop (d t : List (BitVec 8)) (p : Packet) (v : BitVec 8 × BitVec 8 × BitVec 8) (i : Nat)
    (h : d.drop i = (if is20 p.header then [v.1, v.2.1, v.2.2] else []) ++ t) :
    ∃ j, takeExtension d p i = some ({ p with extension := if is20 p.header then v else p.extension }, j) ∧ d.drop j = t ∧
      j = i + (if is20 p.header then [v.1, v.2.1, v.2.2] else []).length := by
  unfold takeExtension
  have q : p.header.getLsbD HEADER_20 = is20 p.header := rfl
  rw [q]
  cases e : is20 p.header with
  | true =>
    rw [e] at h
    obtain ⟨a, b⟩ := get_drop h
    obtain ⟨c, f⟩ := get_drop b
    obtain ⟨g, k⟩ := get_drop f
    exact ⟨i + 3, by simp [a, c, g], k, rfl⟩
  | false =>
    rw [e] at h
    exact ⟨i, by simp, h, rfl⟩

/-- C346: at each position of data with a whole packet, `parse()` yields its fields and the position behind it. -/
theorem C346_parse (d rest : List (BitVec 8)) (old p : Packet) (i : Nat) (hm : p.header.getLsbD 7 = false)
    (h : d.drop i = encode p ++ rest) :
    parse d old i = some (update old p, i + (encode p).length) ∧ d.drop (i + (encode p).length) = rest := by
  unfold encode at h
  rw [List.cons_append] at h
  simp only [List.append_assoc] at h
  obtain ⟨g0, h0⟩ := get_drop h
  obtain ⟨j1, g1, h1, l1⟩ := takeAccel_drop d _ { old with header := p.header } p.accel (i + 1) h0
  obtain ⟨j2, g2, h2, l2⟩ := takeGyro_drop d _ { old with header := p.header, accel := if hasAccel p.header then p.accel else old.accel } p.gyro j1 h1
  obtain ⟨j3, g3, h3, l3⟩ := takeTemp_drop d _ { old with header := p.header, accel := if hasAccel p.header then p.accel else old.accel, gyro := if hasGyro p.header then p.gyro else old.gyro } p.temp j2 h2
  obtain ⟨j4, g4, h4, l4⟩ := takeTime_drop d _ { old with header := p.header, accel := if hasAccel p.header then p.accel else old.accel, gyro := if hasGyro p.header then p.gyro else old.gyro, temp := if hasAccel p.header || hasGyro p.header then (if is20 p.header then p.temp else old.temp.extractLsb' 8 8 ++ p.temp.extractLsb' 0 8) else old.temp } p.timestamp j3 h3
  obtain ⟨j5, g5, h5, l5⟩ := takeExtension_drop d _ { old with header := p.header, accel := if hasAccel p.header then p.accel else old.accel, gyro := if hasGyro p.header then p.gyro else old.gyro, temp := if hasAccel p.header || hasGyro p.header then (if is20 p.header then p.temp else old.temp.extractLsb' 8 8 ++ p.temp.extractLsb' 0 8) else old.temp, timestamp := if hasTime p.header then p.timestamp else old.timestamp } p.extension j4 h4
  have len : j5 = i + (encode p).length := by
    simp only at l1 l2 l3 l4 l5
    rw [l5, l4, l3, l2, l1]
    simp only [encode, List.length_cons, List.length_append]
    omega
  rw [← len]
  refine ⟨?_, h5⟩
  unfold parse
  simp only [g0]
  have m : p.header.getLsbD HEADER_MSG = false := hm
  rw [m]
  simp only [Bool.false_eq_true, if_false]
  simp only [g1, Option.bind_eq_bind, Option.bind_some, g2, g3, g4, g5]
  rfl

/-- A packet with all fields in 20 bits, and one with acceleration and 8 bits of temperature. -/
def big : Packet := ⟨0b01111000, (1, 2, 3), (4, 5, 6), 700, 800, (0x12, 0x34, 0x56)⟩
def small : Packet := ⟨0b01000000, (7, 8, 9), (0, 0, 0), 20, 0, (0, 0, 0)⟩

/-- Case. -/
example : (encode big).length = 20 ∧ (encode small).length = 8 ∧
    parse (encode small ++ encode big) blank 8 = some (big, 28) := by decide +kernel

/-- The packets as seen one after another. -/
def history (old : Packet) : List Packet → List Packet
  | [] => []
  | p :: ps => update old p :: history (update old p) ps

def encodeAll (ps : List Packet) : List (BitVec 8) := (ps.map encode).flatten

theorem update_blank (old p : Packet) (h : p.header ≠ 0#8) : update old p ≠ blank := by
  intro e
  have : (update old p).header = blank.header := by rw [e]
  exact h this

theorem loop_all (d : List (BitVec 8)) (ps : List Packet) : ∀ n old p i, ps.length + 1 < n →
    (∀ q ∈ ps, q.header.getLsbD 7 = false ∧ q.header ≠ 0#8) → p.header ≠ 0#8 →
    d.drop i = encodeAll ps → i ≤ d.length →
    loop d n (update old p, i) = some (update old p :: history (update old p) ps) := by
  induction ps with
  | nil =>
    intro n old p i hn _ hp hd hi
    obtain ⟨m, rfl⟩ : ∃ m, n = m + 2 := ⟨n - 2, by simp at hn; omega⟩
    have il : i = d.length := by
      have : (d.drop i).length = 0 := by rw [hd]; rfl
      rw [List.length_drop] at this
      omega
    have no : ¬ (i = d.length ∧ update old p = blank) := fun h => update_blank old p hp h.2
    have pr : parse d (update old p) i = some (blank, d.length) := by
      unfold parse
      rw [il, List.getElem?_eq_none (Nat.le_refl _)]
    simp only [loop, no, if_false, pr, Option.bind_eq_bind, Option.bind_some]
    simp [history]
  | cons q ps ih =>
    intro n old p i hn hq hp hd hi
    obtain ⟨m, rfl⟩ : ∃ m, n = m + 1 := ⟨n - 1, by omega⟩
    have q0 := hq q (by simp)
    have no : ¬ (i = d.length ∧ update old p = blank) := fun h => update_blank old p hp h.2
    obtain ⟨a, b⟩ := C346_parse d (encodeAll ps) (update old p) q i q0.1 hd
    have le : i + (encode q).length ≤ d.length := by
      have : (d.drop i).length = (encodeAll (q :: ps)).length := by rw [hd]
      rw [List.length_drop] at this
      have e : (encodeAll (q :: ps)).length = (encode q).length + (encodeAll ps).length := by
        simp [encodeAll]
      omega
    have := ih m (update old p) q (i + (encode q).length) (by simp at hn; omega)
      (fun x hx => hq x (List.mem_cons_of_mem _ hx)) q0.2 b le
    simp only [loop, no, if_false, a, Option.bind_eq_bind, Option.bind_some, this]
    rfl

theorem length_all (ps : List Packet) : ps.length ≤ (encodeAll ps).length := by
  induction ps with
  | nil => simp
  | cons p ps ih =>
    have e : (encodeAll (p :: ps)).length = (encode p).length + (encodeAll ps).length := by simp [encodeAll]
    have : 1 ≤ (encode p).length := by simp [encode]
    rw [e, List.length_cons]; omega

/-- C346: a loop over data with any number of whole packets visits exactly these packets, in order, and ends. -/
theorem C346_loop_partial (ps : List Packet) (h : ∀ q ∈ ps, q.header.getLsbD 7 = false ∧ q.header ≠ 0#8) :
    visit (encodeAll ps) = some (history blank ps) := by
  cases ps with
  | nil => decide
  | cons p ps =>
    have p0 := h p (by simp)
    have hd : (encodeAll (p :: ps)).drop 0 = encode p ++ encodeAll ps := by simp [encodeAll]
    obtain ⟨a, b⟩ := C346_parse (encodeAll (p :: ps)) (encodeAll ps) blank p 0 p0.1 hd
    unfold visit
    rw [a]
    have e : (encodeAll (p :: ps)).length = (encode p).length + (encodeAll ps).length := by simp [encodeAll]
    have := length_all ps
    have one : 1 ≤ (encode p).length := by simp [encode]
    exact loop_all _ ps _ blank p _ (by omega) (fun x hx => h x (List.mem_cons_of_mem _ hx)) p0.2 b (by omega)

/-- Case: two packets. -/
example : visit (encodeAll [small, big]) = some [small, big] := by decide +kernel

/-- C346 (refuted): only the position of the header is compared with the size of the data.  The driver reads at most as
many bytes as fit into the buffer; a packet that does not fit is parsed behind the end of the buffer. -/
theorem C346_end_counterexample : parse ((encode big).take 15) blank 0 = none ∧ visit ((encode big).take 15) = none := by
  decide +kernel

/-! ### Values -/

theorem or_low (k : Nat) (hk : k ≤ 3) (v : BitVec 16) (y : BitVec 32) (hy : y.toNat < 2 ^ k) :
    ((v.signExtend 32 <<< k) ||| y).toInt = v.toInt * 2 ^ k + y.toNat := by
  have dis : (v.signExtend 32 <<< k) &&& y = 0#32 := by
    apply BitVec.eq_of_getLsbD_eq
    intro i hi
    rw [BitVec.getLsbD_and, BitVec.getLsbD_shiftLeft]
    by_cases l : i < k
    · simp [l]
    · have : y.getLsbD i = false := by
        rw [BitVec.getLsbD]
        exact Nat.testBit_lt_two_pow (Nat.lt_of_lt_of_le hy (Nat.pow_le_pow_right (by omega) (by omega)))
      simp [this]
  rw [← BitVec.add_eq_or_of_and_eq_zero _ _ dis, BitVec.toInt_add, BitVec.shiftLeft_eq_mul_twoPow, BitVec.toInt_mul,
    BitVec.toInt_signExtend_of_le (by omega)]
  have lo := BitVec.le_toInt v
  have hi := BitVec.toInt_lt (x := v)
  have yl : y.toInt = y.toNat := by
    rw [BitVec.toInt_eq_toNat_of_lt]
    have : 2 ^ k ≤ 2 ^ 3 := Nat.pow_le_pow_right (by omega) hk
    omega
  have tw : (BitVec.twoPow 32 k).toInt = 2 ^ k := by
    have : ∀ k ≤ 3, (BitVec.twoPow 32 k).toInt = 2 ^ k := by decide
    exact this k hk
  rw [yl, tw]
  have pk : (2 : Int) ^ k ≤ 8 ∧ 1 ≤ (2 : Int) ^ k := by
    have : ∀ k ≤ 3, (2 : Int) ^ k ≤ 8 ∧ 1 ≤ (2 : Int) ^ k := by decide
    exact this k hk
  have yb : (y.toNat : Int) < 8 := by
    have : 2 ^ k ≤ 2 ^ 3 := Nat.pow_le_pow_right (by omega) hk
    omega
  have b1 : v.toInt * 2 ^ k ≤ 32767 * 8 := by
    rcases Int.le_total 0 v.toInt with s | s
    · exact Int.mul_le_mul (by omega) pk.1 (by omega) (by omega)
    · have : v.toInt * 2 ^ k ≤ 0 := Int.mul_nonpos_of_nonpos_of_nonneg s (by omega)
      omega
  have b2 : -32768 * 8 ≤ v.toInt * 2 ^ k := by
    rcases Int.le_total 0 v.toInt with s | s
    · have : 0 ≤ v.toInt * 2 ^ k := Int.mul_nonneg s (by omega)
      omega
    · have : (-v.toInt) * 2 ^ k ≤ 32768 * 8 := Int.mul_le_mul (by omega) pk.1 (by omega) (by omega)
      rw [Int.neg_mul] at this
      omega
  rw [Int.bmod_eq_of_le (n := v.toInt * 2 ^ k) (by omega) (by omega), Int.bmod_eq_of_le (by omega) (by omega)]

/-- C347: for all values and extensions: acceleration and rotation of packets with 16 bits are the signed numbers sent;
the acceleration of packets with 20 bits is the number of 20 bits divided by four, that is 18 bits as the scale of
8192 for each g needs.  The rotation is right for packets with 20 bits if the extension is zero. -/
theorem C347_values_partial (h e : BitVec 8) (v : BitVec 16) :
    (is20 h = false → (accelAxis h v e).toInt = v.toInt ∧ (gyroAxis h v e).toInt = v.toInt) ∧
    (is20 h = true → (accelAxis h v e).toInt = (v.toInt * 16 + (e.toNat / 16 : Nat)) / 4) ∧
    (is20 h = true → e.toNat % 16 = 0 → (gyroAxis h v e).toInt = (v.toInt * 16 + (e.toNat % 16 : Nat)) / 2) := by
  have q : h.getLsbD HEADER_20 = is20 h := rfl
  unfold accelAxis gyroAxis
  rw [q]
  have te : ∀ n < 256, ((((BitVec.ofNat 8 n).signExtend 32 &&& 0xf0#32).sshiftRight 6).toNat = n / 64) ∧
      (((BitVec.ofNat 8 n).signExtend 32 &&& 0x0f#32).toNat = n % 16) := by decide +kernel
  have e8 : e.toNat < 256 := e.isLt
  have t := te e.toNat e8
  rw [BitVec.ofNat_toNat, BitVec.setWidth_eq] at t
  refine ⟨?_, ?_, ?_⟩
  · intro n
    rw [n]
    simp only [Bool.false_eq_true, if_false]
    rw [BitVec.toInt_signExtend_of_le (by omega)]
    exact ⟨rfl, rfl⟩
  · intro n
    rw [n, if_pos rfl, or_low 2 (by omega) v _ (by rw [t.1]; omega), t.1]
    omega
  · intro n z
    rw [n, if_pos rfl, or_low 3 (by omega) v _ (by rw [t.2, z]; decide), t.2, z]
    omega

/-- Case. -/
example : (accelAxis 0b01010000 (-1) 0xC0).toInt = -1 ∧ (-1 * 16 + 12 : Int) / 4 = -1 ∧ (accelAxis 0b01000000 (-5) 0).toInt = -5 := by
  decide +kernel

/-- C347 (refuted): the four bits of the extension are not shifted when they are combined with a rotation that is shifted by
only three.  The number of 20 bits for 1 and 8 is 24, with 19 bits 12, but `getGyro()` is 8, less than for an extension of
2, for which it is 10 instead of 9. -/
theorem C347_gyro_counterexample :
    (gyroAxis 0b00110000 1 8).toInt = 8 ∧ (1 * 16 + 8 : Int) / 2 = 12 ∧ (gyroAxis 0b00110000 1 2).toInt = 10 ∧ (1 * 16 + 2 : Int) / 2 = 9 := by
  decide +kernel

/-- The temperature that a packet contains: a signed number of 16 or 8 bits. -/
def temperature (p : Packet) : Int := if is20 p.header then p.temp.toInt else (p.temp.extractLsb' 0 8).toInt

/-- C348: the temperature is right for packets with 20 bits, and for others if it is not negative and no packet with 20
bits came before into the same object. -/
theorem C348_temperature_partial (old p : Packet) (h : (hasAccel p.header || hasGyro p.header) = true) :
    (is20 p.header = true → (update old p).temp.toInt = temperature p) ∧
    (is20 p.header = false → old.temp.toNat < 256 → 0 ≤ temperature p → (update old p).temp.toInt = temperature p) := by
  unfold update temperature
  simp only [h, if_true]
  constructor
  · intro e; simp [e]
  · intro e ho hp
    rw [e] at hp ⊢
    simp only [Bool.false_eq_true, if_false] at hp ⊢
    have z : old.temp.extractLsb' 8 8 = 0#8 := by
      apply BitVec.eq_of_toNat_eq
      rw [BitVec.extractLsb'_toNat, Nat.shiftRight_eq_div_pow]
      have : old.temp.toNat / 2 ^ 8 = 0 := Nat.div_eq_of_lt (by omega)
      rw [this]; rfl
    rw [z]
    have te : ∀ n < 256, 0 ≤ (BitVec.ofNat 8 n).toInt → (0#8 ++ BitVec.ofNat 8 n).toInt = (BitVec.ofNat 8 n).toInt := by decide +kernel
    have := te (p.temp.extractLsb' 0 8).toNat (p.temp.extractLsb' 0 8).isLt
    rw [BitVec.ofNat_toNat, BitVec.setWidth_eq] at this
    exact this hp

/-- Case: 20 / 2.07 + 25 degrees. -/
example : (update blank small).temp.toInt = 20 ∧ temperature small = 20 := by decide +kernel

/-- C348 (refuted): one byte is copied into a number of two bytes.  A temperature of -1 (24.5 degrees) is read as 255
(148 degrees), and the upper byte of an earlier packet remains. -/
theorem C348_byte_counterexample :
    let cold : Packet := { small with temp := 0xff }
    temperature cold = -1 ∧ (parse (encode cold) blank 0).map (·.1.temp.toInt) = some 255 ∧
    (parse (encode big ++ encode small) big 20).map (·.1.temp.toInt) = some 532 ∧ temperature small = 20 := by decide +kernel

end Props.Ixm42
