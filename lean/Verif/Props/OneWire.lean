import Verif.Model.OneWire
import Verif.Spec.OneWire
import Mathlib.Tactic.Common
set_option autoImplicit false

namespace Props.OneWire
open Modm.OneWire Spec.OneWire

/-! ### Check sum -/

theorem crcStep_eq (c : BitVec 8) : crcStep c = crcBit c false := by
  revert c; decide +kernel

theorem crcStep_split (x y : BitVec 8) : crcStep (x ^^^ y) = crcBit x (y.getLsbD 0) ^^^ (y >>> 1) := by
  rw [crcStep_eq, crcBit, crcBit]
  have h : ((x ^^^ y).getLsbD 0 != false) = (x.getLsbD 0 != y.getLsbD 0) := by
    rw [BitVec.getLsbD_xor]; cases x.getLsbD 0 <;> cases y.getLsbD 0 <;> rfl
  rw [h]
  have hs : (x ^^^ y) >>> 1 = (x >>> 1) ^^^ (y >>> 1) := BitVec.ushiftRight_xor_distrib ..
  rw [hs]
  by_cases hb : (x.getLsbD 0 != y.getLsbD 0) = true
  · rw [if_pos hb, if_pos hb]
    rw [BitVec.xor_assoc, BitVec.xor_assoc, BitVec.xor_comm (y >>> 1)]
  · rw [if_neg hb, if_neg hb]

theorem shift_shift (x : BitVec 8) (a b : Nat) : (x >>> a) >>> b = x >>> (a + b) :=
  (BitVec.shiftRight_add x a b).symm

theorem getLsbD_shift0 (x : BitVec 8) (a : Nat) : (x >>> a).getLsbD 0 = x.getLsbD a := by
  rw [BitVec.getLsbD_ushiftRight]; rfl

theorem crcUpdate_eq (c x : BitVec 8) :
    crcUpdate c x = crcBit (crcBit (crcBit (crcBit (crcBit (crcBit (crcBit (crcBit c
      (x.getLsbD 0)) (x.getLsbD 1)) (x.getLsbD 2)) (x.getLsbD 3)) (x.getLsbD 4)) (x.getLsbD 5)) (x.getLsbD 6))
      (x.getLsbD 7) := by
  rw [crcUpdate, crcStep_split, crcStep_split, crcStep_split, crcStep_split, crcStep_split, crcStep_split,
    crcStep_split, crcStep_split]
  simp only [shift_shift, getLsbD_shift0]
  have h : x >>> 8 = 0 := by
    apply BitVec.eq_of_getLsbD_eq
    intro i hi
    rw [BitVec.getLsbD_ushiftRight, BitVec.getLsbD_of_ge _ _ (by omega)]
    simp
  simp only [Nat.reduceAdd, h]
  exact BitVec.xor_zero

theorem crc_congr {f g : Nat → Bool} (n : Nat) (h : ∀ i, i < n → f i = g i) : crc f n = crc g n := by
  induction n with
  | zero => rfl
  | succ n ih => rw [crc, crc, ih fun i hi => h i (by omega), h n (by omega)]

theorem crcBit_zero : ∀ (c : BitVec 8) (a b : Bool), crcBit c a = 0 → crcBit c b = 0 → a = b := by
  decide +kernel

/-! ### The buffer as 64 bits -/

/-- bit `j` of the buffer -/
def bit (buf : List (BitVec 8)) (j : Nat) : Bool := (buf.getD (j / 8) 0).getLsbD (j % 8)

theorem bit_bytes (d : BitVec 64) (j : Nat) (hj : j < 64) : bit (bytes d) j = d.getLsbD j := by
  rw [bit, bytes]
  have h8 : j / 8 < 8 := by omega
  rw [List.getD_eq_getElem?_getD, List.getElem?_map, List.getElem?_range h8]
  simp only [Option.map_some, Option.getD_some]
  rw [BitVec.getLsbD_extractLsb']
  rw [decide_eq_true (by omega : j % 8 < 8), Bool.true_and, show 8 * (j / 8) + j % 8 = j by omega]

theorem buffer_ext {a b : List (BitVec 8)} (ha : a.length = 8) (hb : b.length = 8)
    (h : ∀ j, j < 64 → bit a j = bit b j) : a = b := by
  apply List.ext_getElem (by omega)
  intro i h1 h2
  apply BitVec.eq_of_getLsbD_eq
  intro k hk
  have := h (8 * i + k) (by omega)
  rw [bit, bit, show (8 * i + k) / 8 = i by omega, show (8 * i + k) % 8 = k by omega] at this
  rw [List.getD_eq_getElem?_getD, List.getD_eq_getElem?_getD, List.getElem?_eq_getElem h1,
    List.getElem?_eq_getElem h2] at this
  exact this

theorem length_bytes (d : BitVec 64) : (bytes d).length = 8 := by simp [bytes]

theorem rom_ext {a b : BitVec 64} (h : ∀ j, j < 64 → a.getLsbD j = b.getLsbD j) : a = b :=
  BitVec.eq_of_getLsbD_eq fun i hi => h i hi

theorem bytes_inj {a b : BitVec 64} (h : bytes a = bytes b) : a = b :=
  rom_ext fun j hj => by rw [← bit_bytes a j hj, h, bit_bytes b j hj]

/-- storing a bit -/
theorem bit_store (buf : List (BitVec 8)) (j : Nat) (hb : buf.length = 8) (hj : j < 64) (dir : Bool) (i : Nat) :
    bit (buf.set (j / 8) (if dir then buf.getD (j / 8) 0 ||| ((1 : BitVec 8) <<< (j % 8))
      else buf.getD (j / 8) 0 &&& ~~~((1 : BitVec 8) <<< (j % 8)))) i = if i = j then dir else bit buf i := by
  have hm : ∀ k, ((1 : BitVec 8) <<< (j % 8)).getLsbD k = decide (k = j % 8) := by
    have : ∀ a < 8, ∀ k, ((1 : BitVec 8) <<< a).getLsbD k = decide (k = a) := by
      intro a ha k
      by_cases hk : k < 8
      · revert a k; decide +kernel
      · rw [BitVec.getLsbD_of_ge _ _ (by omega), eq_comm, decide_eq_false_iff_not]; omega
    exact this _ (by omega)
  generalize ((1 : BitVec 8) <<< (j % 8)) = m at *
  rw [bit, bit, List.getD_eq_getElem?_getD, List.getElem?_set]
  by_cases h : j / 8 = i / 8
  · rw [if_pos h, if_pos (by omega), Option.getD_some, ← h]
    by_cases hij : i = j
    · subst hij
      rw [if_pos rfl]
      have h8 : i % 8 < 8 := by omega
      cases dir <;> simp [hm, h8, -BitVec.getLsbD_eq_getElem]
    · rw [if_neg hij]
      have : i % 8 ≠ j % 8 := by omega
      have h8 : i % 8 < 8 := by omega
      cases dir <;> simp [hm, this, h8, -BitVec.getLsbD_eq_getElem]
  · rw [if_neg h, if_neg (by rintro rfl; exact h rfl), List.getD_eq_getElem?_getD]

theorem mask_gt : ∀ (k : Fin 8) (x : BitVec 8),
    decide (x &&& ((1 : BitVec 8) <<< k.1) > 0) = x.getLsbD k.1 := by decide +kernel

/-! ### The loop -/

/-- device `d` agrees with `b` in the first `n` bits -/
def Agree (d : BitVec 64) (b : Nat → Bool) (n : Nat) : Prop := ∀ i, i < n → d.getLsbD i = b i

/-- the path `b` goes to zero at bit `n` although a device that agrees so far has a one -/
def ZeroTaken (D : List (BitVec 64)) (b : Nat → Bool) (n : Nat) : Prop :=
  b n = false ∧ ∃ e ∈ D, Agree e b n ∧ e.getLsbD n = true

/-- `v` is one more than the last number below `k` with `P`, or `base` if there is none -/
def Last (P : Nat → Prop) (k : Nat) (v base : BitVec 8) : Prop :=
  (v = base ∧ ∀ n, n < k → ¬ P n) ∨
    ∃ n, n < k ∧ v = BitVec.ofNat 8 (n + 1) ∧ P n ∧ ∀ m, n < m → m < k → ¬ P m

theorem Last.step {P Q : Nat → Prop} {k : Nat} {v base : BitVec 8} (h : Last P k v base)
    (heq : ∀ n, n < k → (P n ↔ Q n)) (hk : ¬ Q k) : Last Q (k + 1) v base := by
  rcases h with ⟨h1, h2⟩ | ⟨n, h1, h2, h3, h4⟩
  · left
    refine ⟨h1, fun n hn hq => ?_⟩
    by_cases hnk : n < k
    · exact h2 n hnk ((heq n hnk).2 hq)
    · exact hk ((show n = k by omega) ▸ hq)
  · right
    refine ⟨n, by omega, h2, (heq n h1).1 h3, fun m hm1 hm2 hq => ?_⟩
    by_cases hmk : m < k
    · exact h4 m hm1 hmk ((heq m hmk).2 hq)
    · exact hk ((show m = k by omega) ▸ hq)

theorem Last.hit {Q : Nat → Prop} {k : Nat} {base : BitVec 8} (hk : Q k) :
    Last Q (k + 1) (BitVec.ofNat 8 (k + 1)) base :=
  Or.inr ⟨k, by omega, rfl, hk, fun m h1 h2 => by omega⟩

theorem Last.congr {P Q : Nat → Prop} {k : Nat} {v base : BitVec 8} (h : Last P k v base)
    (heq : ∀ n, n < k → (P n ↔ Q n)) : Last Q k v base := by
  rcases h with ⟨h1, h2⟩ | ⟨n, h1, h2, h3, h4⟩
  · exact Or.inl ⟨h1, fun n hn hq => h2 n hn ((heq n hn).2 hq)⟩
  · exact Or.inr ⟨n, h1, h2, (heq n h1).1 h3, fun m hm1 hm2 hq => h4 m hm1 hm2 ((heq m hm2).2 hq)⟩

/-- two devices that agree with `b` in the first `n` bits differ at bit `n` -/
def Discrepancy (D : List (BitVec 64)) (b : Nat → Bool) (n : Nat) : Prop :=
  (∃ e ∈ D, Agree e b n ∧ e.getLsbD n = true) ∧ ∃ e ∈ D, Agree e b n ∧ e.getLsbD n = false

/-- the bit that is taken at a discrepancy -/
def choice (ld : BitVec 8) (old : Nat → Bool) (n : Nat) : Bool :=
  if n + 1 < ld.toNat then old n else decide (n + 1 = ld.toNat)

/-- The loop after `j` bits -/
structure Inv (D : List (BitVec 64)) (ld lfd : BitVec 8) (old : Nat → Bool) (j : Nat) (l : Loop) : Prop where
  id : l.idBitNumber = BitVec.ofNat 8 (j + 1)
  byte : l.romByteNumber = j / 8
  mask : l.romByteMask = (1 : BitVec 8) <<< (j % 8)
  len : l.romBuffer.length = 8
  crc : l.crc8 = Spec.OneWire.crc (bit l.romBuffer) (8 * (j / 8))
  pos : l.bus.pos = j
  active : ∀ d, d ∈ l.bus.active ↔ d ∈ D ∧ Agree d (bit l.romBuffer) j
  some : ∃ d, d ∈ l.bus.active
  tail : ∀ i, j ≤ i → bit l.romBuffer i = old i
  choice : ∀ n, n < j → Discrepancy D (bit l.romBuffer) n → bit l.romBuffer n = choice ld old n
  zero : Last (ZeroTaken D (bit l.romBuffer)) j l.lastZeroBit 0
  fam : Last (ZeroTaken D (bit l.romBuffer)) (min j 8) l.lastFamilyDiscrepancy lfd

theorem agree_congr {d : BitVec 64} {b c : Nat → Bool} {n : Nat} (h : ∀ i, i < n → b i = c i) :
    Agree d b n ↔ Agree d c n :=
  ⟨fun ha i hi => (ha i hi).trans (h i hi), fun ha i hi => (ha i hi).trans (h i hi).symm⟩

theorem zeroTaken_congr {D : List (BitVec 64)} {b c : Nat → Bool} {n : Nat} (h : ∀ i, i ≤ n → b i = c i) :
    ZeroTaken D b n ↔ ZeroTaken D c n := by
  rw [ZeroTaken, ZeroTaken, h n (Nat.le_refl n)]
  constructor
  · rintro ⟨h1, e, he, h2, h3⟩
    exact ⟨h1, e, he, (agree_congr fun i hi => h i (by omega)).1 h2, h3⟩
  · rintro ⟨h1, e, he, h2, h3⟩
    exact ⟨h1, e, he, (agree_congr fun i hi => h i (by omega)).2 h2, h3⟩

theorem discrepancy_congr {D : List (BitVec 64)} {b c : Nat → Bool} {n : Nat} (h : ∀ i, i < n → b i = c i) :
    Discrepancy D b n ↔ Discrepancy D c n := by
  simp only [Discrepancy, agree_congr h]

theorem advance_fields (l : Loop) (dir : Bool) (j : Nat) (hj : j < 64)
    (hid : l.idBitNumber = BitVec.ofNat 8 (j + 1)) (hbyte : l.romByteNumber = j / 8)
    (hmask : l.romByteMask = (1 : BitVec 8) <<< (j % 8)) (hlen : l.romBuffer.length = 8)
    (hcrc : l.crc8 = Spec.OneWire.crc (bit l.romBuffer) (8 * (j / 8))) :
    (advance l dir).idBitNumber = BitVec.ofNat 8 (j + 2) ∧ (advance l dir).romByteNumber = (j + 1) / 8 ∧
    (advance l dir).romByteMask = (1 : BitVec 8) <<< ((j + 1) % 8) ∧ (advance l dir).romBuffer.length = 8 ∧
    (∀ i, bit (advance l dir).romBuffer i = if i = j then dir else bit l.romBuffer i) ∧
    (advance l dir).crc8 = Spec.OneWire.crc (bit (advance l dir).romBuffer) (8 * ((j + 1) / 8)) ∧
    (advance l dir).bus = l.bus.writeBit dir ∧ (advance l dir).lastZeroBit = l.lastZeroBit ∧
    (advance l dir).lastFamilyDiscrepancy = l.lastFamilyDiscrepancy := by
  have hst := bit_store l.romBuffer j hlen hj dir
  obtain ⟨by', hby⟩ : ∃ x, x = (if dir then l.romBuffer.getD (j / 8) 0 ||| ((1 : BitVec 8) <<< (j % 8))
      else l.romBuffer.getD (j / 8) 0 &&& ~~~((1 : BitVec 8) <<< (j % 8))) := ⟨_, rfl⟩
  rw [← hby] at hst
  have hinc : BitVec.ofNat 8 (j + 1) + 1 = BitVec.ofNat 8 (j + 2) := by
    exact (BitVec.ofNat_add (j + 1) 1).symm
  have hzero : ((1 : BitVec 8) <<< (j % 8)) <<< 1 = 0 ↔ j % 8 = 7 := by
    have : ∀ a : Nat, a < 8 → (((1 : BitVec 8) <<< a) <<< 1 = 0 ↔ a = 7) := by decide +kernel
    exact this _ (by omega)
  by_cases h7 : j % 8 = 7
  · have e : advance l dir = { l with
        romBuffer := l.romBuffer.set (j / 8) by', bus := l.bus.writeBit dir, idBitNumber := BitVec.ofNat 8 (j + 2),
        romByteMask := 1, crc8 := crcUpdate l.crc8 by', romByteNumber := j / 8 + 1 } := by
      rw [advance]
      simp only [hid, hbyte, hmask, hinc, if_pos (hzero.2 h7), ← hby]
    rw [e]
    refine ⟨rfl, ?_, ?_, by simp [hlen], hst, ?_, rfl, rfl, rfl⟩
    · show j / 8 + 1 = _; omega
    · rw [show (j + 1) % 8 = 0 by omega]; rfl
    · show crcUpdate l.crc8 by' = _
      rw [hcrc, show 8 * ((j + 1) / 8) = 8 * (j / 8) + 8 by omega]
      show _ = Spec.OneWire.crc (bit (l.romBuffer.set (j / 8) by')) (8 * (j / 8) + 8)
      have hbit : ∀ k, k < 8 → by'.getLsbD k = bit (l.romBuffer.set (j / 8) by') (8 * (j / 8) + k) := by
        intro k hk
        rw [bit, show (8 * (j / 8) + k) / 8 = j / 8 by omega, show (8 * (j / 8) + k) % 8 = k by omega,
          List.getD_eq_getElem?_getD, List.getElem?_set, if_pos rfl, if_pos (by omega), Option.getD_some]
      have hpre : Spec.OneWire.crc (bit l.romBuffer) (8 * (j / 8)) =
          Spec.OneWire.crc (bit (l.romBuffer.set (j / 8) by')) (8 * (j / 8)) :=
        crc_congr _ fun i hi => by rw [hst i, if_neg (by omega)]
      rw [crcUpdate_eq, hpre, hbit 0 (by omega), hbit 1 (by omega), hbit 2 (by omega), hbit 3 (by omega),
        hbit 4 (by omega), hbit 5 (by omega), hbit 6 (by omega), hbit 7 (by omega)]
      rfl
  · have e : advance l dir = { l with
        romBuffer := l.romBuffer.set (j / 8) by', bus := l.bus.writeBit dir, idBitNumber := BitVec.ofNat 8 (j + 2),
        romByteMask := ((1 : BitVec 8) <<< (j % 8)) <<< 1 } := by
      rw [advance]
      simp only [hid, hbyte, hmask, hinc, if_neg (fun h => h7 (hzero.1 h)), ← hby]
    rw [e]
    refine ⟨rfl, ?_, ?_, by simp [hlen], hst, ?_, rfl, rfl, rfl⟩
    · show l.romByteNumber = _; omega
    · show ((1 : BitVec 8) <<< (j % 8)) <<< 1 = _
      rw [← BitVec.shiftLeft_add, show (j + 1) % 8 = j % 8 + 1 by omega]
    · show l.crc8 = Spec.OneWire.crc (bit (l.romBuffer.set (j / 8) by')) _
      rw [hcrc, show (j + 1) / 8 = j / 8 by omega]
      exact crc_congr _ fun i hi => by rw [hst i, if_neg (by omega)]

theorem body_inv {D : List (BitVec 64)} {ld lfd : BitVec 8} {old : Nat → Bool} {j : Nat} {l : Loop} (hj : j < 64)
    (h : Inv D ld lfd old j l) : ∃ l', body ld l = some l' ∧ Inv D ld lfd old (j + 1) l' := by
  obtain ⟨d0, hd0⟩ := h.some
  -- the line is high in both slots only without a device
  have hread : l.bus.readBit = true ↔ ∀ d ∈ l.bus.active, d.getLsbD j = true := by
    rw [Bus.readBit, List.all_eq_true, h.pos]
  have hcomp : l.bus.readComplement = true ↔ ∀ d ∈ l.bus.active, d.getLsbD j = false := by
    rw [Bus.readComplement, List.all_eq_true, h.pos]
    simp
  have hnot : ¬ ((l.bus.readBit && l.bus.readComplement) = true) := by
    rw [Bool.and_eq_true, hread, hcomp]
    rintro ⟨h1, h2⟩
    have := (h1 d0 hd0).symm.trans (h2 d0 hd0)
    exact absurd this (by decide)
  -- the common part: direction `dir`, taken by a device that takes part
  have key : ∀ (m : Loop) (dir : Bool), m.idBitNumber = l.idBitNumber → m.romByteNumber = l.romByteNumber →
      m.romByteMask = l.romByteMask → m.crc8 = l.crc8 → m.romBuffer = l.romBuffer → m.bus = l.bus →
      (∃ d ∈ l.bus.active, d.getLsbD j = dir) →
      (Discrepancy D (bit l.romBuffer) j → dir = choice ld old j) →
      (∀ c : Nat → Bool, (∀ i, c i = if i = j then dir else bit l.romBuffer i) →
        Last (ZeroTaken D c) (j + 1) m.lastZeroBit 0 ∧
        Last (ZeroTaken D c) (min (j + 1) 8) m.lastFamilyDiscrepancy lfd) →
      Inv D ld lfd old (j + 1) (advance m dir) := by
    intro m dir e1 e2 e3 e4 e5 e6 hd hc hl
    obtain ⟨f1, f2, f3, f4, f5, f6, f7, f8, f9⟩ := advance_fields m dir j hj (e1.trans h.id) (e2.trans h.byte)
      (e3.trans h.mask) (by rw [e5]; exact h.len) (by rw [e4, e5]; exact h.crc)
    rw [e5] at f5
    have hsame : ∀ n, n ≤ j → ∀ i, i < n → bit l.romBuffer i = bit (advance m dir).romBuffer i := by
      intro n hn i hi
      rw [f5 i, if_neg (by omega)]
    have hact : ∀ d, d ∈ (l.bus.writeBit dir).active ↔ d ∈ l.bus.active ∧ d.getLsbD j = dir := by
      intro d
      rw [Bus.writeBit, List.mem_filter, h.pos, beq_iff_eq]
    refine ⟨f1, f2, f3, f4, f6, ?_, ?_, ?_, ?_, ?_, ?_, ?_⟩
    · rw [f7, e6, Bus.writeBit]
      show l.bus.pos + 1 = _
      rw [h.pos]
    · intro d
      rw [f7, e6, hact, h.active]
      constructor
      · rintro ⟨⟨h1, h2⟩, h3⟩
        refine ⟨h1, fun i hi => ?_⟩
        rw [f5 i]
        by_cases hij : i = j
        · rw [if_pos hij, hij, h3]
        · rw [if_neg hij]; exact h2 i (by omega)
      · rintro ⟨h1, h2⟩
        refine ⟨⟨h1, fun i hi => ?_⟩, ?_⟩
        · rw [h2 i (by omega), f5 i, if_neg (by omega)]
        · rw [h2 j (by omega), f5 j, if_pos rfl]
    · obtain ⟨d, hd1, hd2⟩ := hd
      exact ⟨d, by rw [f7, e6, hact]; exact ⟨hd1, hd2⟩⟩
    · intro i hi
      rw [f5 i, if_neg (by omega)]
      exact h.tail i (by omega)
    · intro n hn hdis
      by_cases hnj : n = j
      · subst hnj
        rw [f5 n, if_pos rfl]
        exact hc ((discrepancy_congr (hsame n (Nat.le_refl n))).2 hdis)
      · rw [f5 n, if_neg hnj]
        exact h.choice n (by omega) ((discrepancy_congr (hsame n (by omega))).2 hdis)
    · rw [f8]; exact (hl _ f5).1
    · rw [f9]; exact (hl _ f5).2
  -- a bit that is not a zero taken
  have hkeep : ∀ dir : Bool, ¬ (dir = false ∧ ∃ e ∈ D, Agree e (bit l.romBuffer) j ∧ e.getLsbD j = true) →
      ∀ c : Nat → Bool, (∀ i, c i = if i = j then dir else bit l.romBuffer i) →
        Last (ZeroTaken D c) (j + 1) l.lastZeroBit 0 ∧
        Last (ZeroTaken D c) (min (j + 1) 8) l.lastFamilyDiscrepancy lfd := by
    intro dir hn c hc
    have hsame : ∀ n, n < j → (ZeroTaken D (bit l.romBuffer) n ↔ ZeroTaken D c n) := by
      intro n hnj
      exact zeroTaken_congr fun i hi => by rw [hc i, if_neg (by omega)]
    have hnz : ¬ ZeroTaken D c j := by
      rintro ⟨h1, e, he, h2, h3⟩
      rw [hc j, if_pos rfl] at h1
      exact hn ⟨h1, e, he, (agree_congr fun i hi => by rw [hc i, if_neg (by omega)]).1 h2, h3⟩
    refine ⟨h.zero.step hsame hnz, ?_⟩
    by_cases h8 : j < 8
    · have := h.fam
      rw [show min j 8 = j by omega] at this
      rw [show min (j + 1) 8 = j + 1 by omega]
      exact this.step hsame hnz
    · have := h.fam
      rw [show min j 8 = 8 by omega] at this
      rw [show min (j + 1) 8 = 8 by omega]
      exact this.congr fun n hn => hsame n (by omega)
  rw [body]
  simp only [if_neg hnot]
  by_cases hne : l.bus.readBit ≠ l.bus.readComplement
  · rw [if_pos hne]
    refine ⟨_, rfl, key l _ rfl rfl rfl rfl rfl rfl ?_ ?_ (hkeep _ ?_)⟩
    · -- all devices have this bit
      refine ⟨d0, hd0, ?_⟩
      by_cases hr : l.bus.readBit = true
      · rw [hr]; exact hread.1 hr d0 hd0
      · have hc : l.bus.readComplement = true := by
          revert hne hr; cases l.bus.readBit <;> cases l.bus.readComplement <;> simp
        rw [Bool.not_eq_true] at hr
        rw [hr]; exact hcomp.1 hc d0 hd0
    · rintro ⟨⟨e, he, ha, hb⟩, e', he', ha', hb'⟩
      exfalso
      have m1 := (h.active e).2 ⟨he, ha⟩
      have m2 := (h.active e').2 ⟨he', ha'⟩
      by_cases hr : l.bus.readBit = true
      · have := hread.1 hr e' m2
        rw [hb'] at this; exact absurd this (by decide)
      · have hc : l.bus.readComplement = true := by
          revert hne hr; cases l.bus.readBit <;> cases l.bus.readComplement <;> simp
        have := hcomp.1 hc e m1
        rw [hb] at this; exact absurd this (by decide)
    · rintro ⟨hr, e, he, ha, hb⟩
      have hc : l.bus.readComplement = true := by
        revert hne hr; cases l.bus.readBit <;> cases l.bus.readComplement <;> simp
      have := hcomp.1 hc e ((h.active e).2 ⟨he, ha⟩)
      rw [hb] at this; exact absurd this (by decide)
  · rw [if_neg hne]
    have hboth : l.bus.readBit = false ∧ l.bus.readComplement = false := by
      revert hne hnot; cases l.bus.readBit <;> cases l.bus.readComplement <;> simp
    -- there is a one and a zero
    have hone : ∃ e ∈ l.bus.active, e.getLsbD j = true := by
      by_contra hx
      push Not at hx
      have := hcomp.2 fun d hd => by simpa using hx d hd
      rw [hboth.2] at this; exact absurd this (by decide)
    have hzero : ∃ e ∈ l.bus.active, e.getLsbD j = false := by
      by_contra hx
      push Not at hx
      have := hread.2 fun d hd => by simpa using hx d hd
      rw [hboth.1] at this; exact absurd this (by decide)
    have hdir : direction ld l = choice ld old j := by
      rw [direction, choice]
      have hto : l.idBitNumber.toNat = j + 1 := by
        rw [h.id, BitVec.toNat_ofNat]; omega
      by_cases hlt : j + 1 < ld.toNat
      · rw [if_pos (by rw [BitVec.lt_def, hto]; exact hlt), if_pos hlt, ← h.tail j (Nat.le_refl j), h.byte, h.mask]
        exact mask_gt ⟨j % 8, by omega⟩ _
      · rw [if_neg (by rw [BitVec.lt_def, hto]; exact hlt), if_neg hlt]
        rw [decide_eq_decide, ← hto]
        exact BitVec.toNat_inj.symm
    by_cases hd : direction ld l = true
    · simp only [hd, if_true]
      refine ⟨_, rfl, key l true rfl rfl rfl rfl rfl rfl hone (fun _ => by rw [← hdir, hd]) (hkeep _ ?_)⟩
      rintro ⟨h1, -⟩
      exact absurd h1 (by decide)
    · rw [Bool.not_eq_true] at hd
      simp only [hd, if_neg (show ¬ (false = true) by decide)]
      refine ⟨_, rfl, key _ false ?_ ?_ ?_ ?_ ?_ ?_ hzero (fun _ => by rw [← hdir, hd]) ?_⟩
      all_goals try (split <;> rfl)
      intro c hc
      have hz : ZeroTaken D c j := by
        obtain ⟨e, he, hb⟩ := hone
        refine ⟨by rw [hc j, if_pos rfl], e, ((h.active e).1 he).1, ?_, hb⟩
        exact (agree_congr fun i hi => by rw [hc i, if_neg (by omega)]).2 ((h.active e).1 he).2
      have hsame : ∀ n, n < j → (ZeroTaken D (bit l.romBuffer) n ↔ ZeroTaken D c n) := by
        intro n hnj
        exact zeroTaken_congr fun i hi => by rw [hc i, if_neg (by omega)]
      have hid9 : l.idBitNumber < 9 ↔ j < 8 := by
        rw [BitVec.lt_def, h.id, BitVec.toNat_ofNat]
        show (j + 1) % 256 < 9 ↔ _
        omega
      by_cases h8 : j < 8
      · rw [if_pos (hid9.2 h8)]
        rw [show min (j + 1) 8 = j + 1 by omega]
        show Last _ _ l.idBitNumber _ ∧ Last _ _ l.idBitNumber _
        rw [h.id]
        exact ⟨Last.hit hz, Last.hit hz⟩
      · rw [if_neg (fun hx => h8 (hid9.1 hx))]
        show Last _ _ l.idBitNumber _ ∧ Last _ _ l.lastFamilyDiscrepancy _
        have := h.fam
        rw [show min j 8 = 8 by omega] at this
        rw [show min (j + 1) 8 = 8 by omega, h.id]
        exact ⟨Last.hit hz, this.congr fun n hn => hsame n (by omega)⟩

theorem search_inv {D : List (BitVec 64)} {ld lfd : BitVec 8} {old : Nat → Bool} (fuel : Nat) :
    ∀ (j : Nat) (l : Loop), j + (fuel + 1) = 64 → Inv D ld lfd old j l →
      Inv D ld lfd old 64 (search ld (fuel + 1) l) := by
  induction fuel with
  | zero =>
    intro j l hj h
    obtain ⟨l', e, h'⟩ := body_inv (by omega) h
    rw [search, e]
    have : j + 1 = 64 := by omega
    rw [this] at h'
    simp only [h'.byte]
    rw [if_neg (by decide)]
    exact h'
  | succ fuel ih =>
    intro j l hj h
    obtain ⟨l', e, h'⟩ := body_inv (by omega) h
    rw [search, e]
    simp only [h'.byte]
    rw [if_pos (by omega)]
    exact ih (j + 1) l' (by omega) h'

theorem start_inv (s : Search) (D : List (BitVec 64)) (hD : D ≠ []) (hlen : s.romBuffer.length = 8) :
    Inv D s.lastDiscrepancy s.lastFamilyDiscrepancy (bit s.romBuffer) 0 (s.start D) := by
  refine ⟨rfl, rfl, rfl, hlen, rfl, rfl, ?_, ?_, fun _ _ => rfl, fun _ h => absurd h (by omega), ?_, ?_⟩
  · intro d
    exact ⟨fun h => ⟨h, fun i hi => absurd hi (by omega)⟩, fun h => h.1⟩
  · obtain ⟨d, r, rfl⟩ := List.exists_cons_of_ne_nil hD
    exact ⟨d, List.mem_cons_self⟩
  · exact Or.inl ⟨rfl, fun n h => absurd h (by omega)⟩
  · exact Or.inl ⟨rfl, fun n h => absurd h (by omega)⟩

/-- What a search finds: device `d`, coming from the buffer `old` with discrepancy `ld` -/
structure Found (D : List (BitVec 64)) (ld lfd : BitVec 8) (old : Nat → Bool) (d : BitVec 64) (s : Search) : Prop where
  mem : d ∈ D
  rom : s.romBuffer = bytes d
  choice : ∀ n, n < 64 → Discrepancy D d.getLsbD n → d.getLsbD n = choice ld old n
  zero : Last (ZeroTaken D d.getLsbD) 64 s.lastDiscrepancy 0
  fam : Last (ZeroTaken D d.getLsbD) 8 s.lastFamilyDiscrepancy lfd
  flag : s.lastDeviceFlag = decide (s.lastDiscrepancy = 0)

theorem family_eq (d : BitVec 64) : (bytes d).getD 0 0 = family d := by
  rw [bytes]
  show d.extractLsb' 0 8 = _
  apply BitVec.eq_of_getLsbD_eq
  intro i hi
  rw [BitVec.getLsbD_extractLsb', family, BitVec.getLsbD_setWidth, Nat.zero_add]

/-- A search with devices on the bus, whatever the state -/
theorem performSearch_cases (s : Search) (D : List (BitVec 64)) (hD : D ≠ []) (hlen : s.romBuffer.length = 8)
    (hflag : s.lastDeviceFlag = false) :
    ∃ d ∈ D, (Valid d → (s.performSearch D).1 = true ∧
        Found D s.lastDiscrepancy s.lastFamilyDiscrepancy (bit s.romBuffer) d (s.performSearch D).2) ∧
      (¬ Valid d → (s.performSearch D).1 = false) := by
  have h := search_inv 63 0 (s.start D) rfl (start_inv s D hD hlen)
  have hemp : ¬ (D.isEmpty = true) := by simpa using hD
  rw [Search.performSearch, hflag]
  simp only [if_neg (show ¬ (false = true) by decide), if_neg hemp]
  generalize search s.lastDiscrepancy (63 + 1) (s.start D) = l at *
  obtain ⟨d, hd⟩ := h.some
  obtain ⟨hdD, hda⟩ := (h.active d).1 hd
  have hrom : l.romBuffer = bytes d :=
    buffer_ext h.len (length_bytes d) fun j hj => by rw [bit_bytes d j hj, hda j hj]
  have hcrc : l.crc8 = crc d.getLsbD 64 := by
    rw [h.crc]
    exact crc_congr _ fun i hi => (hda i (by omega)).symm
  have hid : ¬ (l.idBitNumber < 65) := by
    rw [h.id]; decide
  have hagree : ∀ n, n ≤ 64 → ∀ i, i < n → bit l.romBuffer i = d.getLsbD i := fun n hn i hi => (hda i (by omega)).symm
  have hz : ∀ n, n < 64 → (ZeroTaken D (bit l.romBuffer) n ↔ ZeroTaken D d.getLsbD n) := fun n hn =>
    zeroTaken_congr fun i hi => (hda i (by omega)).symm
  refine ⟨d, hdD, ?_, ?_⟩
  · rintro ⟨hv1, hv2⟩
    rw [if_neg (by rw [hcrc, hv2]; simpa using hid)]
    have hfam : ¬ (l.romBuffer.getD 0 0 = 0) := by rw [hrom, family_eq]; exact hv1
    simp only [if_neg hfam]
    refine ⟨trivial, hdD, hrom, ?_, h.zero.congr hz, ?_, rfl⟩
    · intro n hn hdis
      rw [hda n hn]
      exact h.choice n hn ((discrepancy_congr (hagree n (by omega))).2 hdis)
    · exact h.fam.congr fun n hn => hz n (by omega)
  · intro hv
    by_cases hc : crc d.getLsbD 64 = 0
    · rw [if_neg (by rw [hcrc, hc]; simpa using hid)]
      have hfam : l.romBuffer.getD 0 0 = 0 := by
        rw [hrom, family_eq]
        by_contra hne
        exact hv ⟨hne, hc⟩
      simp only [if_pos hfam]
      rfl
    · rw [if_pos (Or.inr (by rw [hcrc]; exact hc))]
      rfl

/-! ### Order -/

theorem first_difference {a b : BitVec 64} (k : Nat) (h : ∃ n, n < k ∧ a.getLsbD n ≠ b.getLsbD n) :
    ∃ n, n < k ∧ (∀ i, i < n → a.getLsbD i = b.getLsbD i) ∧ a.getLsbD n ≠ b.getLsbD n := by
  induction k with
  | zero => obtain ⟨n, hn, -⟩ := h; omega
  | succ k ih =>
    by_cases hk : ∃ n, n < k ∧ a.getLsbD n ≠ b.getLsbD n
    · obtain ⟨n, h1, h2⟩ := ih hk
      exact ⟨n, by omega, h2⟩
    · push Not at hk
      obtain ⟨n, hn, hne⟩ := h
      have : n = k := by
        by_contra hc
        exact hne (hk n (by omega))
      subst this
      exact ⟨n, by omega, hk, hne⟩

theorem before_total {a b : BitVec 64} (h : a ≠ b) : Before a b ∨ Before b a := by
  have : ∃ n, n < 64 ∧ a.getLsbD n ≠ b.getLsbD n := by
    by_contra hc
    push Not at hc
    exact h (rom_ext hc)
  obtain ⟨n, hn, hi, hne⟩ := first_difference 64 this
  cases ha : a.getLsbD n
  · exact Or.inl ⟨n, hn, hi, ha, by cases hb : b.getLsbD n; exact absurd (ha.trans hb.symm) hne; rfl⟩
  · exact Or.inr ⟨n, hn, fun i h => (hi i h).symm, by cases hb : b.getLsbD n; rfl; exact absurd (ha.trans hb.symm) hne, ha⟩

theorem before_asymm {a b : BitVec 64} (h : Before a b) : ¬ Before b a := by
  rintro ⟨m, hm, him, h3, h4⟩
  obtain ⟨n, hn, hin, h1, h2⟩ := h
  rcases Nat.lt_trichotomy m n with hlt | heq | hgt
  · have := hin m hlt; rw [h3, h4] at this; exact absurd this (by decide)
  · subst heq; rw [h3] at h2; exact absurd h2 (by decide)
  · have := him n hgt; rw [h1, h2] at this; exact absurd this (by decide)

theorem before_irrefl (a : BitVec 64) : ¬ Before a a := fun h => before_asymm h h

theorem before_trans {a b c : BitVec 64} (h : Before a b) (h' : Before b c) : Before a c := by
  obtain ⟨n, hn, hin, h1, h2⟩ := h
  obtain ⟨m, hm, him, h3, h4⟩ := h'
  rcases Nat.lt_trichotomy m n with hlt | heq | hgt
  · exact ⟨m, hm, fun i hi => (hin i (by omega)).trans (him i hi), by rw [hin m hlt, h3], h4⟩
  · subst heq; rw [h2] at h3; exact absurd h3 (by decide)
  · exact ⟨n, hn, fun i hi => (hin i hi).trans (him i (by omega)), h1, by rw [← him n hgt, h2]⟩

/-- There is a list of the devices in the order of the search. -/
theorem sorted_exists (D : List (BitVec 64)) : ∃ l : List (BitVec 64), l.Pairwise Before ∧ ∀ d, d ∈ l ↔ d ∈ D := by
  classical
  induction D with
  | nil => exact ⟨[], List.Pairwise.nil, fun d => Iff.rfl⟩
  | cons x D ih =>
    obtain ⟨l, hl, hm⟩ := ih
    refine ⟨l.filter (fun d => Before d x) ++ x :: l.filter (fun d => Before x d), ?_, ?_⟩
    · rw [List.pairwise_append]
      refine ⟨hl.filter _, ?_, ?_⟩
      · rw [List.pairwise_cons]
        refine ⟨fun d hd => ?_, hl.filter _⟩
        simpa using (List.mem_filter.1 hd).2
      · intro a ha b hb
        have ha' : Before a x := by simpa using (List.mem_filter.1 ha).2
        rcases List.mem_cons.1 hb with rfl | hb
        · exact ha'
        · have hb' : Before x b := by simpa using (List.mem_filter.1 hb).2
          exact before_trans ha' hb'
    · intro d
      rw [List.mem_append, List.mem_cons, List.mem_cons, List.mem_filter, List.mem_filter, hm]
      simp only [decide_eq_true_eq]
      constructor
      · rintro (h | h | h)
        · exact Or.inr h.1
        · exact Or.inl h
        · exact Or.inr h.1
      · rintro (h | h)
        · exact Or.inr (Or.inl h)
        · by_cases hx : d = x
          · exact Or.inr (Or.inl hx)
          · rcases before_total hx with hb | hb
            · exact Or.inl ⟨h, hb⟩
            · exact Or.inr (Or.inr ⟨h, hb⟩)

/-! ### From device to device -/

/-- A path that takes zeros from bit `k` on leads to the first device with the same first `k` bits. -/
theorem zeros_first {D : List (BitVec 64)} {d : BitVec 64} (k : Nat) (hd : d ∈ D)
    (h : ∀ n, k ≤ n → n < 64 → Discrepancy D d.getLsbD n → d.getLsbD n = false) {e : BitVec 64} (he : e ∈ D)
    (hk : Agree e d.getLsbD k) (hne : e ≠ d) : Before d e := by
  rcases before_total hne with hb | hb
  · obtain ⟨n, hn, hi, h1, h2⟩ := hb
    exfalso
    have hkn : k ≤ n := by
      by_contra hc
      have := hk n (by omega)
      rw [h1, h2] at this; exact absurd this (by decide)
    have := h n hkn hn ⟨⟨d, hd, fun i _ => rfl, h2⟩, e, he, hi, h1⟩
    rw [h2] at this; exact absurd this (by decide)
  · exact hb

/-- The state between two searches: the last device found was `d` -/
structure At (D : List (BitVec 64)) (d : BitVec 64) (s : Search) : Prop where
  mem : d ∈ D
  rom : s.romBuffer = bytes d
  zero : Last (ZeroTaken D d.getLsbD) 64 s.lastDiscrepancy 0
  flag : s.lastDeviceFlag = decide (s.lastDiscrepancy = 0)

theorem Found.at {D : List (BitVec 64)} {ld lfd : BitVec 8} {old : Nat → Bool} {d : BitVec 64} {s : Search}
    (h : Found D ld lfd old d s) : At D d s := ⟨h.mem, h.rom, h.zero, h.flag⟩

/-- A search keeps the first `k` bits of a device if the choice would take them. -/
theorem path_keeps {D : List (BitVec 64)} {d d' : BitVec 64} {ld : BitVec 8} {old : Nat → Bool} (hd : d ∈ D)
    (hd' : d' ∈ D) (hc : ∀ m, m < 64 → Discrepancy D d'.getLsbD m → d'.getLsbD m = choice ld old m) (k : Nat)
    (hk64 : k ≤ 64) (hk : ∀ m, m < k → choice ld old m = d.getLsbD m) : Agree d' d.getLsbD k := by
  induction k with
  | zero => intro i hi; omega
  | succ k ih =>
    have ha := ih (by omega) fun m hm => hk m (by omega)
    intro i hi
    by_cases hik : i < k
    · exact ha i hik
    · have : i = k := by omega
      subst this
      by_contra hne
      have hdis : Discrepancy D d'.getLsbD i := by
        cases hx : d'.getLsbD i
        · refine ⟨⟨d, hd, fun j hj => (ha j hj).symm, ?_⟩, d', hd', fun _ _ => rfl, hx⟩
          cases hy : d.getLsbD i
          · exact absurd (hx.trans hy.symm) hne
          · rfl
        · refine ⟨⟨d', hd', fun _ _ => rfl, hx⟩, d, hd, fun j hj => (ha j hj).symm, ?_⟩
          cases hy : d.getLsbD i
          · rfl
          · exact absurd (hx.trans hy.symm) hne
      exact hne ((hc i (by omega) hdis).trans (hk i (by omega)))

/-- A search that starts from `d` with the discrepancy at bit `n` keeps the bits before, and takes the one there. -/
theorem path_from {D : List (BitVec 64)} {d d' : BitVec 64} {ld : BitVec 8} {n : Nat} (hn : n < 64)
    (hld : ld = BitVec.ofNat 8 (n + 1)) (hz : ZeroTaken D d.getLsbD n) (hd : d ∈ D) (hd' : d' ∈ D)
    (hc : ∀ m, m < 64 → Discrepancy D d'.getLsbD m → d'.getLsbD m = choice ld (bit (bytes d)) m) :
    Agree d' d.getLsbD n ∧ d'.getLsbD n = true ∧
      ∀ m, n + 1 ≤ m → m < 64 → Discrepancy D d'.getLsbD m → d'.getLsbD m = false := by
  have hto : ld.toNat = n + 1 := by rw [hld, BitVec.toNat_ofNat]; omega
  have hagree : Agree d' d.getLsbD n := path_keeps hd hd' hc n (by omega) fun m hm => by
    rw [choice, if_pos (by omega), bit_bytes d m (by omega)]
  obtain ⟨h1, e, he, h2, h3⟩ := hz
  refine ⟨hagree, ?_, ?_⟩
  · have hdis : Discrepancy D d'.getLsbD n :=
      ⟨⟨e, he, fun i hi => (h2 i hi).trans (hagree i hi).symm, h3⟩, d, hd, fun i hi => (hagree i hi).symm, h1⟩
    have := hc n hn hdis
    rw [choice, if_neg (by omega), hto] at this
    simpa using this
  · intro m hm hm64 hdis
    have := hc m hm64 hdis
    rw [choice, if_neg (by omega)] at this
    rw [this, decide_eq_false_iff_not]
    omega

/-- The search after `d` finds the next device, or nothing after the last one. -/
theorem next_device {D : List (BitVec 64)} (hv : ∀ d ∈ D, Valid d) {d : BitVec 64} {s : Search} (h : At D d s) :
    ((∀ e ∈ D, ¬ Before d e) → (s.performSearch D).1 = false ∧ (s.performSearch D).2 = s.resetSearch) ∧
    ((∃ e ∈ D, Before d e) → (s.performSearch D).1 = true ∧ ∃ d', Before d d' ∧
      (∀ e ∈ D, Before d e → e ≠ d' → Before d' e) ∧ At D d' (s.performSearch D).2 ∧
      Found D s.lastDiscrepancy s.lastFamilyDiscrepancy (bit (bytes d)) d' (s.performSearch D).2) := by
  constructor
  · intro hno
    have hld : s.lastDiscrepancy = 0 := by
      rcases h.zero with ⟨h1, -⟩ | ⟨n, hn, -, ⟨h2, e, he, h3, h4⟩, -⟩
      · exact h1
      · exact absurd ⟨n, hn, fun i hi => (h3 i hi).symm, h2, h4⟩ (hno e he)
    have hf : s.lastDeviceFlag = true := by rw [h.flag, hld]; rfl
    rw [Search.performSearch, if_pos hf]
    exact ⟨rfl, rfl⟩
  · rintro ⟨e, he, hb⟩
    rcases h.zero with ⟨-, h1⟩ | ⟨n, hn, hld, hz, hlast⟩
    · obtain ⟨n, hn, hi, h2, h3⟩ := hb
      exact absurd ⟨h2, e, he, fun i hi' => (hi i hi').symm, h3⟩ (h1 n hn)
    have hf : s.lastDeviceFlag = false := by
      rw [h.flag, hld, decide_eq_false_iff_not]
      intro hc
      have := congrArg BitVec.toNat hc
      rw [BitVec.toNat_ofNat] at this
      have h0 : (0 : BitVec 8).toNat = 0 := rfl
      omega
    have hD : D ≠ [] := List.ne_nil_of_mem he
    obtain ⟨d', hd', hval, -⟩ := performSearch_cases s D hD (by rw [h.rom]; exact length_bytes d) hf
    obtain ⟨hr, hfound⟩ := hval (hv d' hd')
    rw [h.rom] at hfound
    obtain ⟨p1, p2, p3⟩ := path_from hn hld hz h.mem hd' hfound.choice
    refine ⟨hr, d', ⟨n, hn, fun i hi => (p1 i hi).symm, hz.1, p2⟩, ?_, hfound.at, hfound⟩
    intro e' he' hb' hne
    obtain ⟨m, hm, hi, h2, h3⟩ := hb'
    have hmn : m ≤ n := by
      by_contra hc
      exact hlast m (by omega) hm ⟨h2, e', he', fun i hi' => (hi i hi').symm, h3⟩
    by_cases hlt : m < n
    · exact ⟨m, hm, fun i hi' => (p1 i (by omega)).trans (hi i hi'), (p1 m hlt).trans h2, h3⟩
    · have : m = n := by omega
      subst this
      refine zeros_first (m + 1) hd' p3 he' ?_ hne
      intro i hi'
      by_cases him : i = m
      · rw [him, h3, p2]
      · rw [p1 i (by omega), hi i (by omega)]

/-- `n` calls of `searchNext`: the results, and the state afterwards -/
def run (D : List (BitVec 64)) : Nat → Search → List (Option (List (BitVec 8))) × Search
  | 0, s => ([], s)
  | n + 1, s => ((s.searchNext D).1 :: (run D n (s.searchNext D).2).1, (run D n (s.searchNext D).2).2)

theorem run_at {D : List (BitVec 64)} (hv : ∀ d ∈ D, Valid d) (l : List (BitVec 64)) :
    ∀ (d : BitVec 64) (s : Search), At D d s → l.Pairwise Before → (∀ e, e ∈ l ↔ e ∈ D ∧ Before d e) →
      (run D (l.length + 1) s).1 = l.map (fun e => some (bytes e)) ++ [none] ∧
      (run D (l.length + 1) s).2.lastDiscrepancy = 0 ∧ (run D (l.length + 1) s).2.lastFamilyDiscrepancy = 0 ∧
      (run D (l.length + 1) s).2.lastDeviceFlag = false ∧ (run D (l.length + 1) s).2.romBuffer.length = 8 := by
  induction l with
  | nil =>
    intro d s h _ hm
    obtain ⟨h1, h2⟩ := (next_device hv h).1 fun e he hb => by
      have := (hm e).2 ⟨he, hb⟩
      exact absurd this (by simp)
    show ([(s.searchNext D).1] = [none]) ∧ (s.searchNext D).2.lastDiscrepancy = 0 ∧ _
    have e : s.searchNext D = (none, s.resetSearch) := by
      rw [Search.searchNext, h1, h2]; rfl
    rw [show (run D (([] : List (BitVec 64)).length + 1) s).2 = (s.searchNext D).2 from rfl, e]
    exact ⟨rfl, rfl, rfl, rfl, by rw [Search.resetSearch, h.rom]; exact length_bytes d⟩
  | cons e r ih =>
    intro d s h hp hm
    have he := (hm e).1 List.mem_cons_self
    obtain ⟨h1, d', hb, hmin, hat, -⟩ := (next_device hv h).2 ⟨e, he⟩
    have hee : d' = e := by
      by_contra hne
      have hx := hmin e he.1 he.2 (fun hc => hne hc.symm)
      have hd' := (hm d').2 ⟨hat.mem, hb⟩
      rcases List.mem_cons.1 hd' with hc | hc
      · exact hne hc
      · exact before_asymm hx ((List.pairwise_cons.1 hp).1 d' hc)
    subst hee
    have e1 : s.searchNext D = (some (bytes d'), (s.performSearch D).2) := by
      rw [Search.searchNext]
      simp only [h1, if_true, hat.rom]
    obtain ⟨i1, i2⟩ := ih d' (s.performSearch D).2 hat (List.pairwise_cons.1 hp).2 (by
      intro f
      constructor
      · intro hf
        exact ⟨((hm f).1 (List.mem_cons_of_mem _ hf)).1, (List.pairwise_cons.1 hp).1 f hf⟩
      · rintro ⟨hf1, hf2⟩
        have := (hm f).2 ⟨hf1, before_trans hb hf2⟩
        rcases List.mem_cons.1 this with hc | hc
        · subst hc; exact absurd hf2 (before_irrefl _)
        · exact hc)
    have e2 : run D ((d' :: r).length + 1) s =
        (some (bytes d') :: (run D (r.length + 1) (s.performSearch D).2).1,
          (run D (r.length + 1) (s.performSearch D).2).2) := by
      show run D ((r.length + 1) + 1) s = _
      rw [run, e1]
    rw [e2]
    exact ⟨by rw [i1]; rfl, i2⟩

/-! ### C83: the search finds every device -/

theorem first_device {D : List (BitVec 64)} (hv : ∀ d ∈ D, Valid d) (hD : D ≠ []) {s : Search}
    (hlen : s.romBuffer.length = 8) (hld : s.lastDiscrepancy = 0) (hf : s.lastDeviceFlag = false) :
    (s.performSearch D).1 = true ∧ ∃ d, (∀ e ∈ D, e ≠ d → Before d e) ∧
      Found D s.lastDiscrepancy s.lastFamilyDiscrepancy (bit s.romBuffer) d (s.performSearch D).2 := by
  obtain ⟨d, hd, hval, -⟩ := performSearch_cases s D hD hlen hf
  obtain ⟨hr, hfound⟩ := hval (hv d hd)
  refine ⟨hr, d, fun e he hne => ?_, hfound⟩
  refine zeros_first 0 hd (fun n _ hn hdis => ?_) he (fun i hi => absurd hi (by omega)) hne
  rw [hfound.choice n hn hdis, choice, hld, if_neg (by simp)]
  simp

/-- C83: on a bus with devices `D`, repeated calls of `searchNext` after `resetSearch` return each device exactly once, in
the order of their ROM codes, and then false.  The next call starts again. -/
theorem C83_enumerate (D : List (BitVec 64)) (hv : ∀ d ∈ D, Valid d) (s : Search) (hlen : s.romBuffer.length = 8)
    (l : List (BitVec 64)) (hp : l.Pairwise Before) (hm : ∀ d, d ∈ l ↔ d ∈ D) :
    (run D (l.length + 1) s.resetSearch).1 = l.map (fun e => some (bytes e)) ++ [none] ∧
    ∃ s' : Search, (run D (l.length + 1) s.resetSearch).2 = s'.resetSearch ∧ s'.romBuffer.length = 8 := by
  have main : (run D (l.length + 1) s.resetSearch).1 = l.map (fun e => some (bytes e)) ++ [none] ∧
      (run D (l.length + 1) s.resetSearch).2.lastDiscrepancy = 0 ∧
      (run D (l.length + 1) s.resetSearch).2.lastFamilyDiscrepancy = 0 ∧
      (run D (l.length + 1) s.resetSearch).2.lastDeviceFlag = false ∧
      (run D (l.length + 1) s.resetSearch).2.romBuffer.length = 8 := by
    by_cases hD : D = []
    · have hl : l = [] := by
        rw [List.eq_nil_iff_forall_not_mem]
        intro d hd
        have := (hm d).1 hd
        rw [hD] at this
        exact absurd this (by simp)
      subst hl hD
      exact ⟨rfl, rfl, rfl, rfl, hlen⟩
    · obtain ⟨h1, d, hmin, hfound⟩ := first_device (s := s.resetSearch) hv hD hlen rfl rfl
      have hdl := (hm d).2 hfound.mem
      cases l with
      | nil => exact absurd hdl (by simp)
      | cons e r =>
        have hde : d = e := by
          by_contra hne
          have hx := hmin e ((hm e).1 List.mem_cons_self) (fun hc => hne hc.symm)
          rcases List.mem_cons.1 hdl with hc | hc
          · exact hne hc
          · exact before_asymm hx ((List.pairwise_cons.1 hp).1 d hc)
        subst hde
        have e1 : s.resetSearch.searchNext D = (some (bytes d), (s.resetSearch.performSearch D).2) := by
          rw [Search.searchNext]
          simp only [h1, if_true, hfound.rom]
        obtain ⟨i1, i2⟩ := run_at hv r d (s.resetSearch.performSearch D).2 hfound.at (List.pairwise_cons.1 hp).2 (by
          intro f
          constructor
          · intro hf
            exact ⟨(hm f).1 (List.mem_cons_of_mem _ hf), (List.pairwise_cons.1 hp).1 f hf⟩
          · rintro ⟨hf1, hf2⟩
            rcases List.mem_cons.1 ((hm f).2 hf1) with hc | hc
            · subst hc; exact absurd hf2 (before_irrefl _)
            · exact hc)
        have e2 : run D ((d :: r).length + 1) s.resetSearch =
            (some (bytes d) :: (run D (r.length + 1) (s.resetSearch.performSearch D).2).1,
              (run D (r.length + 1) (s.resetSearch.performSearch D).2).2) := by
          show run D ((r.length + 1) + 1) s.resetSearch = _
          rw [run, e1]
        rw [e2]
        exact ⟨by rw [i1]; rfl, i2⟩
  obtain ⟨h1, h2, h3, h4, h5⟩ := main
  refine ⟨h1, _, ?_, h5⟩
  generalize (run D (l.length + 1) s.resetSearch).2 = t at *
  obtain ⟨a, b, c, d⟩ := t
  simp only at h2 h3 h4
  subst h2 h3 h4
  rfl

/-- C83: every set of devices has such a list. -/
theorem C83_order (D : List (BitVec 64)) : ∃ l : List (BitVec 64), l.Pairwise Before ∧ ∀ d, d ∈ l ↔ d ∈ D :=
  sorted_exists D

example : Valid 0x2900000000000128 ∧ Valid 0xcc00000000000110 ∧ Valid 0x7000000000000228 := by decide +kernel

example : (run [0x2900000000000128, 0xcc00000000000110, 0x7000000000000228] 4
      (Search.resetSearch ⟨7, 3, true, [1, 2, 3, 4, 5, 6, 7, 8]⟩)).1 =
      [some [0x10, 1, 0, 0, 0, 0, 0, 0xcc], some [0x28, 2, 0, 0, 0, 0, 0, 0x70], some [0x28, 1, 0, 0, 0, 0, 0, 0x29], none] := by
  have h1 : (Search.resetSearch ⟨7, 3, true, [1, 2, 3, 4, 5, 6, 7, 8]⟩).searchNext
      [0x2900000000000128, 0xcc00000000000110, 0x7000000000000228] =
      (some [0x10, 1, 0, 0, 0, 0, 0, 0xcc], ⟨4, 4, false, [0x10, 1, 0, 0, 0, 0, 0, 0xcc]⟩) := by decide +kernel
  have h2 : Search.searchNext ⟨4, 4, false, [0x10, 1, 0, 0, 0, 0, 0, 0xcc]⟩
      [0x2900000000000128, 0xcc00000000000110, 0x7000000000000228] =
      (some [0x28, 2, 0, 0, 0, 0, 0, 0x70], ⟨9, 4, false, [0x28, 2, 0, 0, 0, 0, 0, 0x70]⟩) := by decide +kernel
  have h3 : Search.searchNext ⟨9, 4, false, [0x28, 2, 0, 0, 0, 0, 0, 0x70]⟩
      [0x2900000000000128, 0xcc00000000000110, 0x7000000000000228] =
      (some [0x28, 1, 0, 0, 0, 0, 0, 0x29], ⟨0, 4, true, [0x28, 1, 0, 0, 0, 0, 0, 0x29]⟩) := by decide +kernel
  have h4 : Search.searchNext ⟨0, 4, true, [0x28, 1, 0, 0, 0, 0, 0, 0x29]⟩
      [0x2900000000000128, 0xcc00000000000110, 0x7000000000000228] =
      (none, ⟨0, 0, false, [0x28, 1, 0, 0, 0, 0, 0, 0x29]⟩) := by decide +kernel
  simp only [run, h1, h2, h3, h4]

/-- C83: whatever the state of the search and whatever the devices are like (the bus may have changed since the last
call), a ROM code that is returned is the code of a device on the bus, with a correct check sum. -/
theorem C83_found_is_present (D : List (BitVec 64)) (s : Search) (hlen : s.romBuffer.length = 8) (rom : List (BitVec 8))
    (h : (s.searchNext D).1 = some rom) : ∃ d ∈ D, Valid d ∧ rom = bytes d := by
  rw [Search.searchNext] at h
  by_cases hr : (s.performSearch D).1 = true
  · simp only [hr, if_true, Option.some.injEq] at h
    by_cases hf : s.lastDeviceFlag = true
    · rw [Search.performSearch, if_pos hf] at hr
      exact absurd hr (by simp [Search.notFound])
    · by_cases hD : D = []
      · subst hD
        rw [Search.performSearch, if_neg hf, if_pos (show ([] : List (BitVec 64)).isEmpty = true from rfl)] at hr
        exact absurd hr (by simp [Search.notFound])
      · obtain ⟨d, hd, h1, h2⟩ := performSearch_cases s D hD hlen (by simpa using hf)
        by_cases hv : Valid d
        · exact ⟨d, hd, hv, by rw [← h, (h1 hv).2.rom]⟩
        · rw [h2 hv] at hr
          exact absurd hr (by decide)
  · simp only [if_neg hr] at h
    exact absurd h (by simp)

example : (Search.searchNext ⟨64, 0, false, [0x10, 1, 0, 0, 0, 0, 0, 0xcc]⟩ [0x2900000000000128, 5]).1
    = some [0x28, 1, 0, 0, 0, 0, 0, 0x29] := by decide +kernel

/-! ### C84: search for a family -/

theorem last_bit {a b : BitVec 64} (ha : Valid a) (hb : Valid b) (h : Agree a b.getLsbD 63) : a = b := by
  apply rom_ext
  intro j hj
  by_cases h63 : j < 63
  · exact h j h63
  · have : j = 63 := by omega
    subst this
    have h1 : crcBit (crc a.getLsbD 63) (a.getLsbD 63) = 0 := ha.2
    have h2 : crcBit (crc b.getLsbD 63) (b.getLsbD 63) = 0 := hb.2
    rw [crc_congr 63 h] at h1
    exact crcBit_zero _ _ _ h1 h2

theorem agree8_iff (a b : BitVec 64) : Agree a b.getLsbD 8 ↔ family a = family b := by
  constructor
  · intro h
    apply BitVec.eq_of_getLsbD_eq
    intro i hi
    rw [family, family, BitVec.getLsbD_setWidth, BitVec.getLsbD_setWidth, h i hi]
  · intro h i hi
    have := congrArg (fun x => x.getLsbD i) h
    simp only [family, BitVec.getLsbD_setWidth, decide_eq_true hi, Bool.true_and] at this
    exact this

theorem familyBefore_before {a b : BitVec 64} (h : FamilyBefore a b) : Before a b := by
  obtain ⟨n, hn, h⟩ := h
  exact ⟨n, by omega, h⟩

theorem before_family {a b : BitVec 64} (h : Before a b) : family a = family b ∨ FamilyBefore a b := by
  obtain ⟨n, hn, h1, h2, h3⟩ := h
  by_cases h8 : n < 8
  · exact Or.inr ⟨n, h8, h1, h2, h3⟩
  · exact Or.inl ((agree8_iff a b).1 fun i hi => h1 i (by omega))

theorem familyBefore_congr {a a' b b' : BitVec 64} (ha : family a = family a') (hb : family b = family b')
    (h : FamilyBefore a b) : FamilyBefore a' b' := by
  rw [← agree8_iff] at ha hb
  obtain ⟨n, hn, h1, h2, h3⟩ := h
  exact ⟨n, hn, fun i hi => by rw [← ha i (by omega), ← hb i (by omega), h1 i hi], by rw [← ha n hn, h2],
    by rw [← hb n hn, h3]⟩

/-- C84: after `resetSearch(familyCode)` the search returns first the devices of this family, in their order, if there is one.
(Then it goes on with other families, see below.) -/
theorem C84_family_partial (D : List (BitVec 64)) (hv : ∀ d ∈ D, Valid d) (s : Search) (code : BitVec 8)
    (l m : List (BitVec 64)) (hl : l.Pairwise Before) (hml : ∀ d, d ∈ l ↔ d ∈ D ∧ family d = code) (hne : l ≠ [])
    (hm : m.Pairwise Before) (hmm : ∀ e, e ∈ m ↔ e ∈ D ∧ ∃ d ∈ l, FamilyBefore d e) :
    (run D (l.length + m.length + 1) (s.resetSearchFamily code)).1 =
      l.map (fun e => some (bytes e)) ++ m.map (fun e => some (bytes e)) ++ [none] := by
  cases l with
  | nil => exact absurd rfl hne
  | cons e r =>
    obtain ⟨heD, hef⟩ := (hml e).1 List.mem_cons_self
    have hD : D ≠ [] := List.ne_nil_of_mem heD
    obtain ⟨d, hd, hval, -⟩ := performSearch_cases (s.resetSearchFamily code) D hD rfl rfl
    obtain ⟨hr, hfound⟩ := hval (hv d hd)
    have hold : ∀ i, i < 64 → bit (s.resetSearchFamily code).romBuffer i = if i < 8 then code.getLsbD i else false := by
      intro i hi
      rw [bit]
      by_cases h8 : i < 8
      · rw [if_pos h8, show i / 8 = 0 by omega, show i % 8 = i by omega]; rfl
      · rw [if_neg h8]
        have : ∀ k, 1 ≤ k → k < 8 → (s.resetSearchFamily code).romBuffer.getD k 0 = 0 := by
          intro k h1 h2
          match k, h1, h2 with
          | 1, _, _ => rfl
          | 2, _, _ => rfl
          | 3, _, _ => rfl
          | 4, _, _ => rfl
          | 5, _, _ => rfl
          | 6, _, _ => rfl
          | 7, _, _ => rfl
        rw [this _ (by omega) (by omega)]
        exact BitVec.getLsbD_zero
    have hld : (s.resetSearchFamily code).lastDiscrepancy.toNat = 64 := rfl
    have hch : ∀ i, i < 63 → choice (s.resetSearchFamily code).lastDiscrepancy
        (bit (s.resetSearchFamily code).romBuffer) i = if i < 8 then code.getLsbD i else false := by
      intro i hi
      rw [choice, if_pos (by omega), hold i (by omega)]
    -- the device found has the family
    have hdf : family d = code := by
      rw [← hef]
      apply (agree8_iff d e).1
      refine path_keeps heD hd hfound.choice 8 (by omega) fun i hi => ?_
      rw [hch i (by omega), if_pos hi, ← hef, family, BitVec.getLsbD_setWidth, decide_eq_true hi, Bool.true_and]
    -- and is the first one
    have hmin : ∀ f ∈ D, family f = code → f ≠ d → Before d f := by
      intro f hf hff hfd
      refine zeros_first 8 hd (fun n h8 hn hdis => ?_) hf ((agree8_iff f d).2 (hff.trans hdf.symm)) hfd
      by_cases h63 : n < 63
      · rw [hfound.choice n hn hdis, hch n h63, if_neg (by omega)]
      · exfalso
        have : n = 63 := by omega
        subst this
        obtain ⟨⟨a, ha, ha1, ha2⟩, b, hb, hb1, hb2⟩ := hdis
        have := last_bit (hv a ha) (hv b hb) fun i hi => (ha1 i hi).trans (hb1 i hi).symm
        subst this
        rw [ha2] at hb2
        exact absurd hb2 (by decide)
    have hdl := (hml d).2 ⟨hd, hdf⟩
    have hde : d = e := by
      by_contra hc
      have hx := hmin e heD hef (fun h => hc h.symm)
      rcases List.mem_cons.1 hdl with h | h
      · exact hc h
      · exact before_asymm hx ((List.pairwise_cons.1 hl).1 d h)
    subst hde
    have e1 : (s.resetSearchFamily code).searchNext D =
        (some (bytes d), ((s.resetSearchFamily code).performSearch D).2) := by
      rw [Search.searchNext]
      simp only [hr, if_true, hfound.rom]
    have hrm : (r ++ m).Pairwise Before := by
      rw [List.pairwise_append]
      refine ⟨(List.pairwise_cons.1 hl).2, hm, fun a ha b hb => ?_⟩
      obtain ⟨-, x, hx, hxb⟩ := (hmm b).1 hb
      have hxf := ((hml x).1 hx).2
      have haf := ((hml a).1 (List.mem_cons_of_mem _ ha)).2
      exact familyBefore_before (familyBefore_congr (hxf.trans haf.symm) rfl hxb)
    obtain ⟨i1, -⟩ := run_at hv (r ++ m) d _ hfound.at hrm (by
      intro f
      rw [List.mem_append]
      constructor
      · rintro (hf | hf)
        · exact ⟨((hml f).1 (List.mem_cons_of_mem _ hf)).1, (List.pairwise_cons.1 hl).1 f hf⟩
        · obtain ⟨h1, x, hx, hxf⟩ := (hmm f).1 hf
          exact ⟨h1, familyBefore_before (familyBefore_congr (((hml x).1 hx).2.trans hdf.symm) rfl hxf)⟩
      · rintro ⟨hf1, hf2⟩
        rcases before_family hf2 with h | h
        · left
          rcases List.mem_cons.1 ((hml f).2 ⟨hf1, h.symm.trans hdf⟩) with hc | hc
          · subst hc; exact absurd hf2 (before_irrefl _)
          · exact hc
        · exact Or.inr ((hmm f).2 ⟨hf1, d, hdl, h⟩))
    have e2 : (d :: r).length + m.length + 1 = ((r ++ m).length + 1) + 1 := by simp; omega
    rw [e2, run, e1]
    show _ :: (run D ((r ++ m).length + 1) _).1 = _
    rw [i1]
    simp

example : (run [0x2900000000000128, 0xcc00000000000110, 0x7000000000000228, 0x1000000000000722] 4
      (Search.resetSearchFamily ⟨0, 0, false, [0, 0, 0, 0, 0, 0, 0, 0]⟩ 0x28)).1 =
      [some [0x28, 2, 0, 0, 0, 0, 0, 0x70], some [0x28, 1, 0, 0, 0, 0, 0, 0x29],
       some [0x22, 7, 0, 0, 0, 0, 0, 0x10], none] := by
  have h1 : (Search.resetSearchFamily ⟨0, 0, false, [0, 0, 0, 0, 0, 0, 0, 0]⟩ 0x28).searchNext
      [0x2900000000000128, 0xcc00000000000110, 0x7000000000000228, 0x1000000000000722] =
      (some [0x28, 2, 0, 0, 0, 0, 0, 0x70], ⟨9, 2, false, [0x28, 2, 0, 0, 0, 0, 0, 0x70]⟩) := by decide +kernel
  have h2 : Search.searchNext ⟨9, 2, false, [0x28, 2, 0, 0, 0, 0, 0, 0x70]⟩
      [0x2900000000000128, 0xcc00000000000110, 0x7000000000000228, 0x1000000000000722] =
      (some [0x28, 1, 0, 0, 0, 0, 0, 0x29], ⟨2, 2, false, [0x28, 1, 0, 0, 0, 0, 0, 0x29]⟩) := by decide +kernel
  have h3 : Search.searchNext ⟨2, 2, false, [0x28, 1, 0, 0, 0, 0, 0, 0x29]⟩
      [0x2900000000000128, 0xcc00000000000110, 0x7000000000000228, 0x1000000000000722] =
      (some [0x22, 7, 0, 0, 0, 0, 0, 0x10], ⟨0, 2, true, [0x22, 7, 0, 0, 0, 0, 0, 0x10]⟩) := by decide +kernel
  have h4 : Search.searchNext ⟨0, 2, true, [0x22, 7, 0, 0, 0, 0, 0, 0x10]⟩
      [0x2900000000000128, 0xcc00000000000110, 0x7000000000000228, 0x1000000000000722] =
      (none, ⟨0, 0, false, [0x22, 7, 0, 0, 0, 0, 0, 0x10]⟩) := by decide +kernel
  simp only [run, h1, h2, h3, h4]

/-- C84 refuted: `resetSearch(familyCode)` is documented to make the search consider only devices of this type.  Without such a
device the search returns one of another family, and after the last one it goes on with other families. -/
theorem C84_family_counterexample :
    ((Search.resetSearchFamily ⟨0, 0, false, [0, 0, 0, 0, 0, 0, 0, 0]⟩ 0x28).searchNext
      [0xcc00000000000110]).1 = some [0x10, 1, 0, 0, 0, 0, 0, 0xcc] ∧
    (run [0x2900000000000128, 0x1000000000000722] 2
      (Search.resetSearchFamily ⟨0, 0, false, [0, 0, 0, 0, 0, 0, 0, 0]⟩ 0x28)).1 =
      [some [0x28, 1, 0, 0, 0, 0, 0, 0x29], some [0x22, 7, 0, 0, 0, 0, 0, 0x10]] := by
  refine And.intro (by decide +kernel) ?_
  have h1 : (Search.resetSearchFamily ⟨0, 0, false, [0, 0, 0, 0, 0, 0, 0, 0]⟩ 0x28).searchNext
      [0x2900000000000128, 0x1000000000000722] =
      (some [0x28, 1, 0, 0, 0, 0, 0, 0x29], ⟨2, 2, false, [0x28, 1, 0, 0, 0, 0, 0, 0x29]⟩) := by decide +kernel
  have h2 : Search.searchNext ⟨2, 2, false, [0x28, 1, 0, 0, 0, 0, 0, 0x29]⟩
      [0x2900000000000128, 0x1000000000000722] =
      (some [0x22, 7, 0, 0, 0, 0, 0, 0x10], ⟨0, 2, true, [0x22, 7, 0, 0, 0, 0, 0, 0x10]⟩) := by decide +kernel
  simp only [run, h1, h2]

/-! ### C85: skipping a family -/

/-- a successful search, as its caller sees it -/
theorem searchNext_found {D : List (BitVec 64)} {s : Search} (hlen : s.romBuffer.length = 8) {d : BitVec 64}
    (h : (s.searchNext D).1 = some (bytes d)) :
    Found D s.lastDiscrepancy s.lastFamilyDiscrepancy (bit s.romBuffer) d (s.searchNext D).2 := by
  rw [Search.searchNext] at h ⊢
  by_cases hr : (s.performSearch D).1 = true
  · simp only [hr, if_true, Option.some.injEq] at h
    by_cases hf : s.lastDeviceFlag = true
    · rw [Search.performSearch, if_pos hf] at hr
      exact absurd hr (by simp [Search.notFound])
    · by_cases hD : D = []
      · subst hD
        rw [Search.performSearch, if_neg hf, if_pos (show ([] : List (BitVec 64)).isEmpty = true from rfl)] at hr
        exact absurd hr (by simp [Search.notFound])
      · obtain ⟨e, he, h1, h2⟩ := performSearch_cases s D hD hlen (by simpa using hf)
        by_cases hv : Valid e
        · have := (h1 hv).2
          rw [this.rom] at h
          rw [← bytes_inj h]
          exact this
        · rw [h2 hv] at hr
          exact absurd hr (by decide)
  · simp only [if_neg hr] at h
    exact absurd h (by simp)

theorem skip_next {D : List (BitVec 64)} (hv : ∀ d ∈ D, Valid d) {ld lfd : BitVec 8} {old : Nat → Bool} {d : BitVec 64}
    {s : Search} (h : Found D ld lfd old d s) (hex : ∃ e ∈ D, FamilyBefore d e) :
    (s.searchSkipCurrentFamily.performSearch D).1 = true ∧ ∃ d', FamilyBefore d d' ∧
      (∀ e ∈ D, FamilyBefore d e → e ≠ d' → Before d' e) ∧
      Found D s.lastFamilyDiscrepancy 0 (bit (bytes d)) d' (s.searchSkipCurrentFamily.performSearch D).2 := by
  obtain ⟨e, he, hb⟩ := hex
  obtain ⟨n0, hn0, hi0, h20, h30⟩ := hb
  have hz0 : ZeroTaken D d.getLsbD n0 := ⟨h20, e, he, fun i hi => (hi0 i hi).symm, h30⟩
  rcases h.fam with ⟨-, hno⟩ | ⟨n, hn, hld, hz, hlast⟩
  · exact absurd hz0 (hno n0 hn0)
  have hne : ¬ (s.lastFamilyDiscrepancy = 0) := by
    rw [hld]
    intro hc
    have := congrArg BitVec.toNat hc
    rw [BitVec.toNat_ofNat] at this
    have h0 : (0 : BitVec 8).toNat = 0 := rfl
    omega
  have hld0 : ¬ (s.lastDiscrepancy = 0) := by
    rcases h.zero with ⟨-, hno⟩ | ⟨m, hm, hld', -, -⟩
    · exact absurd hz0 (hno n0 (by omega))
    · rw [hld']
      intro hc
      have := congrArg BitVec.toNat hc
      rw [BitVec.toNat_ofNat] at this
      have h0 : (0 : BitVec 8).toNat = 0 := rfl
      omega
  have hf : s.searchSkipCurrentFamily.lastDeviceFlag = false := by
    rw [Search.searchSkipCurrentFamily]
    simp only [h.flag, decide_eq_false hne, decide_eq_false hld0, Bool.or_false]
  have hD : D ≠ [] := List.ne_nil_of_mem he
  obtain ⟨d', hd', hval, -⟩ := performSearch_cases s.searchSkipCurrentFamily D hD
    (by show s.romBuffer.length = 8; rw [h.rom]; exact length_bytes d) hf
  obtain ⟨hr, hfound⟩ := hval (hv d' hd')
  have e1 : s.searchSkipCurrentFamily.romBuffer = bytes d := h.rom
  have e2 : s.searchSkipCurrentFamily.lastDiscrepancy = s.lastFamilyDiscrepancy := rfl
  have e3 : s.searchSkipCurrentFamily.lastFamilyDiscrepancy = 0 := rfl
  rw [e1, e2, e3] at hfound
  obtain ⟨p1, p2, p3⟩ := path_from (by omega) hld hz h.mem hd' hfound.choice
  refine ⟨hr, d', ⟨n, hn, fun i hi => (p1 i hi).symm, hz.1, p2⟩, ?_, hfound⟩
  intro e' he' hb' hne'
  obtain ⟨m, hm, hi, h2, h3⟩ := hb'
  have hmn : m ≤ n := by
    by_contra hc
    exact hlast m (by omega) hm ⟨h2, e', he', fun i hi' => (hi i hi').symm, h3⟩
  by_cases hlt : m < n
  · exact ⟨m, by omega, fun i hi' => (p1 i (by omega)).trans (hi i hi'), (p1 m hlt).trans h2, h3⟩
  · have : m = n := by omega
    subst this
    refine zeros_first (m + 1) hd' p3 he' ?_ hne'
    intro i hi'
    by_cases him : i = m
    · rw [him, h3, p2]
    · rw [p1 i (by omega), hi i (by omega)]

theorem skip_end {D : List (BitVec 64)} {ld : BitVec 8} {old : Nat → Bool} {d : BitVec 64} {s : Search}
    (h : Found D ld 0 old d s) (hno : ∀ e ∈ D, ¬ FamilyBefore d e) :
    (s.searchSkipCurrentFamily.performSearch D).1 = false := by
  have hl : s.lastFamilyDiscrepancy = 0 := by
    rcases h.fam with ⟨h1, -⟩ | ⟨n, hn, -, ⟨h1, e, he, h2, h3⟩, -⟩
    · exact h1
    · exact absurd ⟨n, hn, fun i hi => (h2 i hi).symm, h1, h3⟩ (hno e he)
  have hf : s.searchSkipCurrentFamily.lastDeviceFlag = true := by
    rw [Search.searchSkipCurrentFamily]
    simp only [hl, decide_true, Bool.or_true]
  rw [Search.performSearch, if_pos hf]
  rfl

/-- C85: after a device was found, skipping its family makes the next search return the first device of the families that
follow, if there is one. -/
theorem C85_skip_next_partial (D : List (BitVec 64)) (hv : ∀ d ∈ D, Valid d) (s : Search) (hlen : s.romBuffer.length = 8)
    (d : BitVec 64) (hd : (s.searchNext D).1 = some (bytes d)) (hex : ∃ e ∈ D, FamilyBefore d e) :
    ∃ d' ∈ D, FamilyBefore d d' ∧ (∀ e ∈ D, FamilyBefore d e → e ≠ d' → Before d' e) ∧
      ((s.searchNext D).2.searchSkipCurrentFamily.searchNext D).1 = some (bytes d') := by
  obtain ⟨h1, d', h2, h3, h4⟩ := skip_next hv (searchNext_found hlen hd) hex
  refine ⟨d', h4.mem, h2, h3, ?_⟩
  rw [Search.searchNext]
  simp only [h1, if_true, h4.rom]

example : (((Search.resetSearch ⟨0, 0, false, [0, 0, 0, 0, 0, 0, 0, 0]⟩).searchNext
      [0x2900000000000128, 0xcc00000000000110, 0x1000000000000510]).2.searchSkipCurrentFamily.searchNext
      [0x2900000000000128, 0xcc00000000000110, 0x1000000000000510]).1 = some [0x28, 1, 0, 0, 0, 0, 0, 0x29] := by
  have h1 : (Search.resetSearch ⟨0, 0, false, [0, 0, 0, 0, 0, 0, 0, 0]⟩).searchNext
      [0x2900000000000128, 0xcc00000000000110, 0x1000000000000510] =
      (some [0x10, 1, 0, 0, 0, 0, 0, 0xcc], ⟨11, 4, false, [0x10, 1, 0, 0, 0, 0, 0, 0xcc]⟩) := by decide +kernel
  rw [h1]
  decide +kernel

/-- `n` times `searchNext` followed by `searchSkipCurrentFamily` -/
def runSkip (D : List (BitVec 64)) : Nat → Search → List (Option (List (BitVec 8)))
  | 0, _ => []
  | n + 1, s => (s.searchNext D).1 :: runSkip D n (s.searchNext D).2.searchSkipCurrentFamily

/-- `d` is the first device of its family. -/
def First (D : List (BitVec 64)) (d : BitVec 64) : Prop := d ∈ D ∧ ∀ e ∈ D, family e = family d → e ≠ d → Before d e

theorem runSkip_found {D : List (BitVec 64)} (hv : ∀ d ∈ D, Valid d) (l : List (BitVec 64)) :
    ∀ (d : BitVec 64) (s : Search) (ld : BitVec 8) (old : Nat → Bool), Found D ld 0 old d s → l.Pairwise FamilyBefore →
      (∀ f ∈ l, First D f ∧ FamilyBefore d f) → (∀ e ∈ D, FamilyBefore d e → ∃ f ∈ l, family f = family e) →
      runSkip D (l.length + 1) s.searchSkipCurrentFamily = l.map (fun e => some (bytes e)) ++ [none] := by
  induction l with
  | nil =>
    intro d s ld old h _ _ hm
    have := skip_end h fun e he hb => by
      obtain ⟨f, hf, -⟩ := hm e he hb
      exact absurd hf (by simp)
    show [(s.searchSkipCurrentFamily.searchNext D).1] = [none]
    rw [Search.searchNext, this]
    rfl
  | cons f r ih =>
    intro d s ld old h hp hf hm
    obtain ⟨hff, hdf⟩ := hf f List.mem_cons_self
    obtain ⟨h1, d', h2, h3, h4⟩ := skip_next hv h ⟨f, hff.1, hdf⟩
    have hd' : d' = f := by
      obtain ⟨g, hg, hgf⟩ := hm d' h4.mem h2
      have hgd : g = d' := by
        by_contra hne
        have a1 := h3 g (hf g hg).1.1 (hf g hg).2 hne
        have a2 := (hf g hg).1.2 d' h4.mem hgf.symm (fun hc => hne hc.symm)
        exact before_asymm a1 a2
      subst hgd
      rcases List.mem_cons.1 hg with hc | hc
      · exact hc
      · by_contra hne
        have a1 := h3 f hff.1 hdf (fun hc => hne hc.symm)
        have a2 := familyBefore_before ((List.pairwise_cons.1 hp).1 g hc)
        exact before_asymm a1 a2
    subst hd'
    have e1 : s.searchSkipCurrentFamily.searchNext D =
        (some (bytes d'), (s.searchSkipCurrentFamily.performSearch D).2) := by
      rw [Search.searchNext]
      simp only [h1, if_true, h4.rom]
    show runSkip D ((r.length + 1) + 1) s.searchSkipCurrentFamily = _
    rw [runSkip, e1]
    rw [ih d' _ _ _ h4 (List.pairwise_cons.1 hp).2
      (fun g hg => ⟨(hf g (List.mem_cons_of_mem _ hg)).1, (List.pairwise_cons.1 hp).1 g hg⟩) (by
        intro e he hb
        obtain ⟨g, hg, hge⟩ := hm e he (by
          have := before_trans (familyBefore_before h2) (familyBefore_before hb)
          rcases before_family this with hc | hc
          · exact absurd (familyBefore_before (familyBefore_congr rfl hc.symm hb)) (fun hx =>
              before_asymm hx (familyBefore_before h2))
          · exact hc)
        rcases List.mem_cons.1 hg with hc | hc
        · subst hc
          obtain ⟨n, hn, -, ha, hb'⟩ := hb
          have := (agree8_iff g e).2 hge n hn
          rw [ha, hb'] at this
          exact absurd this (by decide)
        · exact ⟨g, hc, hge⟩)]
    rfl

/-- C85: `searchNext` and `searchSkipCurrentFamily` in turn return the first device of each family, and then false. -/
theorem C85_families_partial (D : List (BitVec 64)) (hv : ∀ d ∈ D, Valid d) (s : Search) (hlen : s.romBuffer.length = 8)
    (l : List (BitVec 64)) (hp : l.Pairwise FamilyBefore) (hf : ∀ d ∈ l, First D d)
    (hm : ∀ e ∈ D, ∃ f ∈ l, family f = family e) :
    runSkip D (l.length + 1) s.resetSearch = l.map (fun e => some (bytes e)) ++ [none] := by
  by_cases hD : D = []
  · have hl : l = [] := by
      rw [List.eq_nil_iff_forall_not_mem]
      intro d hd
      have := (hf d hd).1
      rw [hD] at this
      exact absurd this (by simp)
    subst hl hD
    rfl
  · obtain ⟨h1, d, hmin, hfound⟩ := first_device (s := s.resetSearch) hv hD hlen rfl rfl
    cases l with
    | nil =>
      obtain ⟨f, hf', -⟩ := hm d hfound.mem
      exact absurd hf' (by simp)
    | cons f r =>
      have hdf : d = f := by
        obtain ⟨g, hg, hgd⟩ := hm d hfound.mem
        have hgd : g = d := by
          by_contra hne
          exact before_asymm (hmin g (hf g hg).1 hne) ((hf g hg).2 d hfound.mem hgd.symm (fun hc => hne hc.symm))
        subst hgd
        rcases List.mem_cons.1 hg with hc | hc
        · exact hc
        · by_contra hne
          exact before_asymm (hmin f (hf f List.mem_cons_self).1 (fun hc => hne hc.symm))
            (familyBefore_before ((List.pairwise_cons.1 hp).1 g hc))
      subst hdf
      have e1 : s.resetSearch.searchNext D = (some (bytes d), (s.resetSearch.performSearch D).2) := by
        rw [Search.searchNext]
        simp only [h1, if_true, hfound.rom]
      show runSkip D ((r.length + 1) + 1) s.resetSearch = _
      rw [runSkip, e1]
      rw [runSkip_found hv r d _ _ _ hfound (List.pairwise_cons.1 hp).2
        (fun g hg => ⟨hf g (List.mem_cons_of_mem _ hg), (List.pairwise_cons.1 hp).1 g hg⟩) (by
          intro e he hb
          obtain ⟨g, hg, hge⟩ := hm e he
          rcases List.mem_cons.1 hg with hc | hc
          · subst hc
            obtain ⟨n, hn, -, ha, hb'⟩ := hb
            have := (agree8_iff g e).2 hge n hn
            rw [ha, hb'] at this
            exact absurd this (by decide)
          · exact ⟨g, hc, hge⟩)]
      rfl

example : runSkip [0x2900000000000128, 0xcc00000000000110, 0x7000000000000228, 0x1000000000000510, 0x1000000000000722] 4
      (Search.resetSearch ⟨7, 3, true, [1, 2, 3, 4, 5, 6, 7, 8]⟩) =
      [some [0x10, 1, 0, 0, 0, 0, 0, 0xcc], some [0x28, 2, 0, 0, 0, 0, 0, 0x70],
       some [0x22, 7, 0, 0, 0, 0, 0, 0x10], none] := by
  have h1 : (Search.resetSearch ⟨7, 3, true, [1, 2, 3, 4, 5, 6, 7, 8]⟩).searchNext
      [0x2900000000000128, 0xcc00000000000110, 0x7000000000000228, 0x1000000000000510, 0x1000000000000722] =
      (some [0x10, 1, 0, 0, 0, 0, 0, 0xcc], ⟨11, 4, false, [0x10, 1, 0, 0, 0, 0, 0, 0xcc]⟩) := by decide +kernel
  have h2 : (Search.searchSkipCurrentFamily ⟨11, 4, false, [0x10, 1, 0, 0, 0, 0, 0, 0xcc]⟩).searchNext
      [0x2900000000000128, 0xcc00000000000110, 0x7000000000000228, 0x1000000000000510, 0x1000000000000722] =
      (some [0x28, 2, 0, 0, 0, 0, 0, 0x70], ⟨9, 2, false, [0x28, 2, 0, 0, 0, 0, 0, 0x70]⟩) := by decide +kernel
  have h3 : (Search.searchSkipCurrentFamily ⟨9, 2, false, [0x28, 2, 0, 0, 0, 0, 0, 0x70]⟩).searchNext
      [0x2900000000000128, 0xcc00000000000110, 0x7000000000000228, 0x1000000000000510, 0x1000000000000722] =
      (some [0x22, 7, 0, 0, 0, 0, 0, 0x10], ⟨0, 0, true, [0x22, 7, 0, 0, 0, 0, 0, 0x10]⟩) := by decide +kernel
  have h4 : (Search.searchSkipCurrentFamily ⟨0, 0, true, [0x22, 7, 0, 0, 0, 0, 0, 0x10]⟩).searchNext
      [0x2900000000000128, 0xcc00000000000110, 0x7000000000000228, 0x1000000000000510, 0x1000000000000722] =
      (none, ⟨0, 0, false, [0x22, 7, 0, 0, 0, 0, 0, 0x10]⟩) := by decide +kernel
  simp only [runSkip, h1, h2, h3, h4]

/-- C85 refuted: when the search has moved on to the last family by itself, the position of an earlier family discrepancy
is still recorded.  Skipping the last family then returns its first device again. -/
theorem C85_skip_counterexample :
    (run [0xcc00000000000110, 0x2900000000000128, 0x7000000000000228] 2
      (Search.resetSearch ⟨0, 0, false, [0, 0, 0, 0, 0, 0, 0, 0]⟩)).1 = [some [0x10, 1, 0, 0, 0, 0, 0, 0xcc], some [0x28, 2, 0, 0, 0, 0, 0, 0x70]] ∧
    ((run [0xcc00000000000110, 0x2900000000000128, 0x7000000000000228] 2
      (Search.resetSearch ⟨0, 0, false, [0, 0, 0, 0, 0, 0, 0, 0]⟩)).2.searchSkipCurrentFamily.searchNext
      [0xcc00000000000110, 0x2900000000000128, 0x7000000000000228]).1 = some [0x28, 2, 0, 0, 0, 0, 0, 0x70] := by
  have h1 : (Search.resetSearch ⟨0, 0, false, [0, 0, 0, 0, 0, 0, 0, 0]⟩).searchNext
      [0xcc00000000000110, 0x2900000000000128, 0x7000000000000228] =
      (some [0x10, 1, 0, 0, 0, 0, 0, 0xcc], ⟨4, 4, false, [0x10, 1, 0, 0, 0, 0, 0, 0xcc]⟩) := by decide +kernel
  have h2 : Search.searchNext ⟨4, 4, false, [0x10, 1, 0, 0, 0, 0, 0, 0xcc]⟩
      [0xcc00000000000110, 0x2900000000000128, 0x7000000000000228] =
      (some [0x28, 2, 0, 0, 0, 0, 0, 0x70], ⟨9, 4, false, [0x28, 2, 0, 0, 0, 0, 0, 0x70]⟩) := by decide +kernel
  simp only [run, h1, h2]
  decide +kernel

/-! ### C86: verification of a device -/

/-- C86: if the buffer already holds the ROM code, `verifyDevice` tells whether this device is on the bus, and leaves the state
of the search alone. -/
theorem C86_verify_partial (D : List (BitVec 64)) (hv : ∀ d ∈ D, Valid d) (s : Search) (d : BitVec 64) (hd : Valid d)
    (hrom : s.romBuffer = bytes d) :
    ((s.verifyDevice D (bytes d)).1 = true ↔ d ∈ D) ∧ (s.verifyDevice D (bytes d)).2 = s := by
  refine ⟨?_, rfl⟩
  rw [Search.verifyDevice]
  obtain ⟨t, ht⟩ : ∃ t : Search, t = { s with lastDiscrepancy := 64, lastDeviceFlag := false } := ⟨_, rfl⟩
  rw [← ht]
  have h1 : t.romBuffer = bytes d := by rw [ht]; exact hrom
  have h2 : t.lastDeviceFlag = false := by rw [ht]
  have h3 : t.lastDiscrepancy.toNat = 64 := by rw [ht]; rfl
  show ((t.performSearch D).1 && bytes d == (t.performSearch D).2.romBuffer) = true ↔ _
  by_cases hD : D = []
  · subst hD
    rw [Search.performSearch, h2]
    simp [Search.notFound]
  obtain ⟨e, he, hval, -⟩ := performSearch_cases t D hD (by rw [h1]; exact length_bytes d) h2
  obtain ⟨hr, hfound⟩ := hval (hv e he)
  rw [hr, Bool.true_and, beq_iff_eq, hfound.rom]
  constructor
  · intro h
    rw [bytes_inj h]
    exact he
  · intro hdD
    have : e = d := by
      apply last_bit (hv e he) hd
      refine path_keeps hdD he hfound.choice 63 (by omega) fun i hi => ?_
      rw [choice, if_pos (by omega), h1, bit_bytes d i (by omega)]
    rw [this]

example : (Search.verifyDevice ⟨3, 1, true, [0x28, 2, 0, 0, 0, 0, 0, 0x70]⟩
      [0x2900000000000128, 0xcc00000000000110, 0x7000000000000228] [0x28, 2, 0, 0, 0, 0, 0, 0x70]).1 = true ∧
    (Search.verifyDevice ⟨3, 1, true, [0x28, 2, 0, 0, 0, 0, 0, 0x70]⟩
      [0x2900000000000128, 0xcc00000000000110] [0x28, 2, 0, 0, 0, 0, 0, 0x70]).1 = false := by decide +kernel

/-- C86: a device that is verified is on the bus. -/
theorem C86_verified_is_present (D : List (BitVec 64)) (s : Search) (hlen : s.romBuffer.length = 8)
    (rom : List (BitVec 8)) (h : (s.verifyDevice D rom).1 = true) : ∃ d ∈ D, Valid d ∧ rom = bytes d := by
  rw [Search.verifyDevice] at h
  simp only [Bool.and_eq_true, beq_iff_eq] at h
  refine C83_found_is_present D { s with lastDiscrepancy := 64, lastDeviceFlag := false } hlen rom ?_
  rw [Search.searchNext]
  simp only [h.1, if_true, h.2]

/-- C86 refuted: `verifyDevice` never uses the ROM code it is given for the search; it walks to the device in the buffer of
the last search.  After a search that ended with another device, a device that is on the bus is reported as missing. -/
theorem C86_verify_counterexample :
    (run [0xcc00000000000110, 0x2900000000000128] 2 (Search.resetSearch ⟨0, 0, false, [0, 0, 0, 0, 0, 0, 0, 0]⟩)).1 =
      [some [0x10, 1, 0, 0, 0, 0, 0, 0xcc], some [0x28, 1, 0, 0, 0, 0, 0, 0x29]] ∧
    ((run [0xcc00000000000110, 0x2900000000000128] 2 (Search.resetSearch ⟨0, 0, false, [0, 0, 0, 0, 0, 0, 0, 0]⟩)).2.verifyDevice
      [0xcc00000000000110, 0x2900000000000128] [0x10, 1, 0, 0, 0, 0, 0, 0xcc]).1 = false := by
  have h1 : (Search.resetSearch ⟨0, 0, false, [0, 0, 0, 0, 0, 0, 0, 0]⟩).searchNext
      [0xcc00000000000110, 0x2900000000000128] =
      (some [0x10, 1, 0, 0, 0, 0, 0, 0xcc], ⟨4, 4, false, [0x10, 1, 0, 0, 0, 0, 0, 0xcc]⟩) := by decide +kernel
  have h2 : Search.searchNext ⟨4, 4, false, [0x10, 1, 0, 0, 0, 0, 0, 0xcc]⟩
      [0xcc00000000000110, 0x2900000000000128] =
      (some [0x28, 1, 0, 0, 0, 0, 0, 0x29], ⟨0, 4, true, [0x28, 1, 0, 0, 0, 0, 0, 0x29]⟩) := by decide +kernel
  simp only [run, h1, h2]
  decide +kernel

/-! ### C87: bytes -/

/-- C87: a byte is written from the lowest bit on. -/
theorem C87_writeByte (data : BitVec 8) : writeByte data = (List.range 8).map fun i => data.getLsbD i := by
  revert data; decide +kernel

/-- C87: `readByte` returns the byte whose bits the device sends. -/
theorem C87_readByte (bits : Nat → Bool) (k : Nat) (hk : k < 8) : (readByte bits).getLsbD k = bits k := by
  have h : readByte bits =
      readByte fun i => [bits 0, bits 1, bits 2, bits 3, bits 4, bits 5, bits 6, bits 7].getD i false := rfl
  have all : ∀ a b c d e f g h : Bool, ∀ k < 8, (readByte fun i => [a, b, c, d, e, f, g, h].getD i false).getLsbD k =
      [a, b, c, d, e, f, g, h].getD k false := by decide +kernel
  rw [h, all _ _ _ _ _ _ _ _ k hk]
  match k, hk with
  | 0, _ | 1, _ | 2, _ | 3, _ | 4, _ | 5, _ | 6, _ | 7, _ => rfl

/-- C87: a byte that one side writes with `writeByte` is the byte that `readByte` gives. -/
theorem C87_round_trip (data : BitVec 8) : readByte (fun i => (writeByte data).getD i false) = data := by
  revert data; decide +kernel

/-- C87: `touchByte` returns the bits of the device where a one is sent, and zeros elsewhere. -/
theorem C87_touchByte (data : BitVec 8) (bits : Nat → Bool) : touchByte data bits = data &&& readByte bits := by
  have hb : ∀ x : BitVec 8, x &&& 0x01 ≠ 0 ↔ x.getLsbD 0 = true := by decide +kernel
  have h : touchByte data bits = readByte fun i => data.getLsbD i && bits i := by
    rw [touchByte, readByte, show List.range 8 = [0, 1, 2, 3, 4, 5, 6, 7] from rfl]
    simp only [List.foldl_cons, List.foldl_nil, hb, shift_shift, getLsbD_shift0, Nat.reduceAdd, Bool.and_eq_true]
  apply BitVec.eq_of_getLsbD_eq
  intro k hk
  rw [h, C87_readByte _ k hk, BitVec.getLsbD_and, C87_readByte _ k hk]

example : touchByte 0xf3 (fun i => i % 2 == 0) = 0x51 ∧ readByte (fun i => i % 2 == 0) = 0x55 := by decide +kernel

end Props.OneWire
