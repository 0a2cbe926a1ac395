import Verif.Spec.GpioPins
import Mathlib.Tactic.Ring
import Mathlib.Data.List.Induction

set_option autoImplicit false

namespace GpioPinsLemmas

open Modm.GpioPins GpioPinsSpec

theorem bit_bit (w pin k : Nat) (hk : k < w) : (bit w pin).getLsbD k = decide (pin = k) := by
  unfold bit
  rw [BitVec.getLsbD_shiftLeft]
  by_cases h : k < pin
  · have : ¬ pin = k := by omega
    simp [h, this]
  · by_cases h2 : pin = k
    · subst h2
      have : 0 < w := by omega
      simp [hk, this]
    · have h3 : k - pin ≠ 0 := by omega
      simp [h2, h, hk, BitVec.getLsbD_one, h3]

theorem mask_bit (w : Nat) (gs : List Pin) (id k : Nat) (hk : k < w) :
    (mask w gs id).getLsbD k = decide (has gs id k) := by
  unfold mask has
  induction gs with
  | nil => simp
  | cons g gs ih =>
      simp only [List.foldr_cons, BitVec.getLsbD_or, ih]
      by_cases h : g.port = id
      · simp [h, bit_bit w g.pin k hk]
      · simp [h]

theorem inverted_bit (w : Nat) (gs : List Pin) (id k : Nat) (hk : k < w) :
    (inverted w gs id).getLsbD k = inverts gs id k := by
  unfold inverted inverts
  induction gs with
  | nil => simp
  | cons g gs ih =>
      simp only [List.foldr_cons, BitVec.getLsbD_or, ih, List.any_cons]
      by_cases h : g.port = id
      · by_cases hi : g.inverted = true
        · simp [h, hi, bit_bit w g.pin k hk]
        · simp [h, hi]
      · simp [h]

theorem has_of_inverts (gs : List Pin) (id k : Nat) (h : inverts gs id k = true) : has gs id k := by
  unfold inverts at h
  rw [List.any_eq_true] at h
  obtain ⟨g, hg, h⟩ := h
  simp only [Bool.and_eq_true, decide_eq_true_eq] at h
  exact ⟨g, hg, h.1.1, h.1.2⟩

/-- A port without pins in the set has none. -/
theorem mask_zero (w : Nat) (gs : List Pin) (id k : Nat) (hk : k < w) (h : mask w gs id = 0#w) : ¬ has gs id k := by
  have := mask_bit w gs id k hk
  rw [h] at this
  simpa using this

/-! ### Fields -/

/-- The fields as a number. -/
def spreadN (b : Nat) (m : BitVec 16) (v : Nat) : Nat → Nat
  | 0 => 0
  | n + 1 => if m.getLsbD n then spreadN b m v n ||| (v * 2 ^ (n * b)) else spreadN b m v n

theorem spreadN_lt (b : Nat) (m : BitVec 16) (v : Nat) (hv : v < 2 ^ b) (n : Nat) :
    spreadN b m v n < 2 ^ (n * b) := by
  induction n with
  | zero => simp [spreadN]
  | succ n ih =>
      have hp : 2 ^ ((n + 1) * b) = 2 ^ (n * b) * 2 ^ b := by
        rw [← Nat.pow_add]; congr 1; ring
      have h1 : 2 ^ (n * b) ≤ 2 ^ ((n + 1) * b) := Nat.pow_le_pow_right (by omega) (Nat.mul_le_mul_right _ (by omega))
      unfold spreadN
      split
      · apply Nat.or_lt_two_pow (by omega)
        rw [hp, Nat.mul_comm]
        exact Nat.mul_lt_mul_of_pos_left hv (Nat.pow_pos (by omega))
      · omega

theorem spreadN_add (b : Nat) (m : BitVec 16) (v : Nat) (hv : v < 2 ^ b) (n : Nat) :
    spreadN b m v (n + 1) = spreadN b m v n + if m.getLsbD n then v * 2 ^ (n * b) else 0 := by
  rw [spreadN]
  split
  · rw [Nat.or_comm, Nat.mul_comm, ← Nat.two_pow_add_eq_or_of_lt (spreadN_lt b m v hv n), Nat.add_comm]
  · simp

theorem spreadN_mul (b : Nat) (m : BitVec 16) (v : Nat) (hb : 0 < b) (hv : v < 2 ^ b) (n : Nat) :
    v * spreadN b m 1 n = spreadN b m v n := by
  have h1 : 1 < 2 ^ b := Nat.one_lt_two_pow (by omega)
  induction n with
  | zero => simp [spreadN]
  | succ n ih =>
      rw [spreadN_add b m v hv, spreadN_add b m 1 h1, Nat.mul_add, ih]
      split <;> simp

theorem spread_eq (w b : Nat) (m : BitVec 16) (v : Nat) : spread w b m v = BitVec.ofNat w (spreadN b m v 16) := by
  have h : ∀ n, (List.range n).foldl
      (fun r ii => if m.getLsbD ii then r ||| (BitVec.ofNat w v <<< (ii * b)) else r) 0#w =
      BitVec.ofNat w (spreadN b m v n) := by
    intro n
    induction n with
    | zero => simp [spreadN]
    | succ n ih =>
        rw [List.range_succ, List.foldl_append, ih, spreadN]
        simp only [List.foldl_cons, List.foldl_nil]
        split
        · rw [BitVec.ofNat_or]
          congr 1
          apply BitVec.eq_of_toNat_eq
          simp [Nat.shiftLeft_eq]
        · rfl
  exact h 16

theorem spread_mul (w b : Nat) (m : BitVec 16) (v : Nat) (hb : 0 < b) (hv : v < 2 ^ b) :
    BitVec.ofNat w v * spread w b m 1 = spread w b m v := by
  rw [spread_eq, spread_eq, ← spreadN_mul b m v hb hv 16]
  apply BitVec.eq_of_toNat_eq
  simp

theorem spreadN_bit (b : Nat) (m : BitVec 16) (v : Nat) (hv : v < 2 ^ b) (i j : Nat) (hj : j < b) (n : Nat) :
    (spreadN b m v n).testBit (b * i + j) = (decide (i < n) && m.getLsbD i && v.testBit j) := by
  induction n with
  | zero => simp [spreadN]
  | succ n ih =>
      have hterm : (v * 2 ^ (n * b)).testBit (b * i + j) = (decide (i = n) && v.testBit j) := by
        rw [Nat.testBit_mul_two_pow]
        rcases Nat.lt_trichotomy i n with h | h | h
        · have h1 : b * (i + 1) ≤ b * n := Nat.mul_le_mul_left b h
          have h2 : ¬ (b * i + j ≥ n * b) := by rw [Nat.mul_comm n b]; rw [Nat.mul_add] at h1; omega
          have h3 : ¬ i = n := by omega
          simp [h2, h3]
        · subst h
          have h2 : b * i + j ≥ i * b := by rw [Nat.mul_comm i b]; omega
          have h3 : b * i + j - i * b = j := by rw [Nat.mul_comm i b]; omega
          simp [h2, h3]
        · have h1 : b * (n + 1) ≤ b * i := Nat.mul_le_mul_left b h
          have h3 : ¬ i = n := by omega
          have h4 : v.testBit (b * i + j - n * b) = false := by
            apply Nat.testBit_lt_two_pow
            apply Nat.lt_of_lt_of_le hv
            apply Nat.pow_le_pow_right (by omega)
            rw [Nat.mul_comm n b]
            rw [Nat.mul_add] at h1
            omega
          simp [h3, h4]
      rw [spreadN]
      by_cases hn : i = n
      · subst hn
        cases hm : m.getLsbD i <;> simp [Nat.testBit_or, ih, hterm]
      · have : decide (i < n + 1) = decide (i < n) := by
          congr 1; rw [eq_iff_iff]; omega
        rw [this]
        split <;> simp [Nat.testBit_or, ih, hterm, hn]

theorem spread_bit (w b : Nat) (m : BitVec 16) (v : Nat) (hv : v < 2 ^ b) (i j : Nat) (hi : i < 16) (hj : j < b)
    (hk : b * i + j < w) : (spread w b m v).getLsbD (b * i + j) = (m.getLsbD i && v.testBit j) := by
  rw [spread_eq, BitVec.getLsbD_ofNat, spreadN_bit b m v hv i j hj 16]
  simp [hi, hk]

/-! ### `BSRR` -/

theorem writeBsrr_bit (v : BitVec 32) (odr : BitVec 16) (k : Nat) (hk : k < 16) :
    (Stm32.writeBsrr v odr).getLsbD k = ((odr.getLsbD k && !v.getLsbD (16 + k)) || v.getLsbD k) := by
  unfold Stm32.writeBsrr
  simp [hk, BitVec.getLsbD_or, BitVec.getLsbD_and, BitVec.getLsbD_not, BitVec.getLsbD_extractLsb',
    -BitVec.getLsbD_eq_getElem]

theorem halves_low (hi lo : BitVec 16) (k : Nat) (hk : k < 16) : (Stm32.halves hi lo).getLsbD k = lo.getLsbD k := by
  unfold Stm32.halves
  have : k < 32 := by omega
  simp [hk, this, BitVec.getLsbD_or, BitVec.getLsbD_shiftLeft, BitVec.getLsbD_setWidth, -BitVec.getLsbD_eq_getElem]

theorem halves_high (hi lo : BitVec 16) (k : Nat) (hk : k < 16) :
    (Stm32.halves hi lo).getLsbD (16 + k) = hi.getLsbD k := by
  unfold Stm32.halves
  have h1 : 16 + k < 32 := by omega
  have h3 : k < 32 := by omega
  simp [h1, h3, BitVec.getLsbD_or, BitVec.getLsbD_shiftLeft, BitVec.getLsbD_setWidth, -BitVec.getLsbD_eq_getElem]

/-! ### Ports -/

theorem has_portPins (start : Pin) (width : Nat) (reversed : Bool) (id k : Nat) :
    has (portPins start width reversed) id k ↔ id = start.port ∧ ∃ i < width, k = portBit start reversed i := by
  unfold has portPins portBit
  cases reversed
  · simp only [Bool.false_eq_true, if_false, List.mem_map, List.mem_reverse, List.mem_range]
    constructor
    · rintro ⟨g, ⟨i, hi, rfl⟩, h1, h2⟩
      exact ⟨h1.symm, i, hi, h2.symm⟩
    · rintro ⟨rfl, i, hi, rfl⟩
      exact ⟨_, ⟨i, hi, rfl⟩, rfl, rfl⟩
  · simp only [if_true, List.mem_map, List.mem_range]
    constructor
    · rintro ⟨g, ⟨i, hi, rfl⟩, h1, h2⟩
      exact ⟨h1.symm, i, hi, h2.symm⟩
    · rintro ⟨rfl, i, hi, rfl⟩
      exact ⟨_, ⟨i, hi, rfl⟩, rfl, rfl⟩

theorem inverts_portPins (start : Pin) (width : Nat) (reversed : Bool) (id k : Nat) :
    inverts (portPins start width reversed) id k =
      (decide (has (portPins start width reversed) id k) && start.inverted) := by
  have hinv : ∀ g ∈ portPins start width reversed, g.inverted = start.inverted := by
    intro g hg
    unfold portPins at hg
    cases reversed
    · simp only [Bool.false_eq_true, if_false, List.mem_map, List.mem_reverse, List.mem_range] at hg
      obtain ⟨i, _, rfl⟩ := hg; rfl
    · simp only [if_true, List.mem_map, List.mem_range] at hg
      obtain ⟨i, _, rfl⟩ := hg; rfl
  rw [Bool.eq_iff_iff]
  unfold inverts
  rw [List.any_eq_true]
  simp only [Bool.and_eq_true, decide_eq_true_eq]
  constructor
  · rintro ⟨g, hg, ⟨h1, h2⟩, h3⟩
    exact ⟨⟨g, hg, h1, h2⟩, by rw [← hinv g hg]; exact h3⟩
  · rintro ⟨⟨g, hg, h1, h2⟩, h3⟩
    exact ⟨g, hg, ⟨h1, h2⟩, by rw [hinv g hg]; exact h3⟩

theorem startPinReversed_eq (w : Nat) (start : Pin) (width : Nat) (hw : w ≤ 256) (he : w % 2 = 0)
    (h : PortOk w start width true) : startPinReversed w start width true = w - 1 - start.pin := by
  obtain ⟨h1, h2, h3⟩ := h
  simp only [if_true] at h3
  unfold startPinReversed startPin
  simp only [if_true]
  omega

theorem portBit_lt (w : Nat) (start : Pin) (width : Nat) (reversed : Bool) (h : PortOk w start width reversed) (i : Nat)
    (hi : i < width) : portBit start reversed i < w := by
  obtain ⟨h1, h2, h3⟩ := h
  unfold portBit
  cases reversed <;> simp at h3 ⊢ <;> omega

theorem portData_bit {w : Nat} (rev : BitVec w → BitVec w) (hrev : Reverses rev) (start : Pin) (width : Nat)
    (reversed : Bool) (hw : w ≤ 256) (he : w % 2 = 0) (h : PortOk w start width reversed) (data : BitVec w) (i : Nat)
    (hi : i < width) : (portData rev start width reversed data).getLsbD (portBit start reversed i) = data.getLsbD i := by
  have hlt := portBit_lt w start width reversed h i hi
  unfold portData
  cases reversed
  · simp only [Bool.false_eq_true, if_false]
    rw [BitVec.getLsbD_shiftLeft]
    have h1 : ¬ (portBit start false i < startPin start width false) := by simp [portBit, startPin]
    have h2 : portBit start false i - startPin start width false = i := by simp [portBit, startPin]
    simp [hlt, h1, h2, -BitVec.getLsbD_eq_getElem]
  · simp only [if_true]
    rw [hrev _ _ hlt, BitVec.getLsbD_shiftLeft, startPinReversed_eq w start width hw he h]
    obtain ⟨h1, h2, h3⟩ := h
    simp only [if_true] at h3
    simp only [portBit, if_true] at *
    have e1 : w - 1 - (start.pin - i) < w := by omega
    have e2 : ¬ (w - 1 - (start.pin - i) < w - 1 - start.pin) := by omega
    have e3 : w - 1 - (start.pin - i) - (w - 1 - start.pin) = i := by omega
    rw [e3]
    simp [e1, e2, -BitVec.getLsbD_eq_getElem]

/-! ### Ports of any pins -/

theorem shiftMask_some (gs : List Pin) (id i pos : Nat) :
    shiftMask gs id i = some pos ↔ ∃ g, gs[gs.length - 1 - i]? = some g ∧ g.port = id ∧ g.pin = pos := by
  unfold shiftMask
  cases h : gs[gs.length - 1 - i]? with
  | none => simp
  | some g =>
      by_cases hp : g.port = id
      · simp [hp]
      · simp [hp]

theorem softData_bit (gs : List Pin) (id : Nat) (data : BitVec 32) (k : Nat) (hk : k < 32) :
    (softData gs id data).getLsbD k = true ↔ ∃ i < gs.length, ∃ pos, shiftMask gs id i = some pos ∧
      ((data.getLsbD i = true ∧ pos = k) ∨ (data.getLsbD i = false ∧ pos + 16 = k)) := by
  unfold softData
  generalize gs.length = n
  induction n with
  | zero => simp
  | succ n ih =>
      rw [List.range_succ, List.foldl_append]
      simp only [List.foldl_cons, List.foldl_nil]
      have hs : ∀ P : Nat → Prop, (∃ i < n + 1, P i) ↔ ((∃ i < n, P i) ∨ P n) := by
        intro P
        constructor
        · rintro ⟨i, hi, hP⟩
          rcases Nat.lt_succ_iff_lt_or_eq.mp hi with h | rfl
          · exact Or.inl ⟨i, h, hP⟩
          · exact Or.inr hP
        · rintro (⟨i, hi, hP⟩ | hP)
          · exact ⟨i, by omega, hP⟩
          · exact ⟨n, by omega, hP⟩
      rw [hs, ← ih]
      cases h : shiftMask gs id n with
      | none => simp
      | some pos =>
          have hb : ∀ p, (1#32 <<< p).getLsbD k = decide (p = k) := fun p => bit_bit 32 p k hk
          cases hd : data.getLsbD n <;>
            simp [BitVec.getLsbD_or, hb, -BitVec.getLsbD_eq_getElem, -BitVec.shiftLeft_eq']

theorem soft_inner {w : Nat} (gs : List Pin) (id : Nat) (p : BitVec w) (r : BitVec 32) (n k : Nat) (hk : k < 32) :
    (softGather gs id p n r).getLsbD k = true ↔
      (r.getLsbD k = true ∨ (k < n ∧ ∃ pos, shiftMask gs id k = some pos ∧ p.getLsbD pos = true)) := by
  unfold softGather
  induction n with
  | zero => simp
  | succ n ih =>
      rw [List.range_succ, List.foldl_append]
      simp only [List.foldl_cons, List.foldl_nil]
      have hterm : ∀ pos, ((((p >>> pos).setWidth 32 &&& 1#32) <<< n)).getLsbD k = (decide (k = n) && p.getLsbD pos) := by
        intro pos
        rw [BitVec.getLsbD_shiftLeft, BitVec.getLsbD_and, BitVec.getLsbD_one, BitVec.getLsbD_setWidth,
          BitVec.getLsbD_ushiftRight]
        by_cases h : k = n
        · subst h; simp [hk]
        · by_cases h2 : k < n
          · simp [h2, h]
          · have h3 : k - n ≠ 0 := by omega
            simp [h3, h]
      by_cases hkn : k = n
      · subst hkn
        cases h : shiftMask gs id k with
        | none => simp [ih]
        | some pos =>
            simp only [BitVec.getLsbD_or, Bool.or_eq_true, hterm, ih]
            simp
      · have e : (k < n + 1) ↔ (k < n) := by omega
        rw [e, ← ih]
        cases h : shiftMask gs id n with
        | none => rfl
        | some pos => simp [BitVec.getLsbD_or, hterm, hkn, -BitVec.getLsbD_eq_getElem]

theorem softGet_bit {w : Nat} (gs : List Pin) (ids : List Nat) (reg : Nat → BitVec w) (k : Nat) (hk : k < 32) :
    (softGet gs ids reg).getLsbD k = true ↔ ∃ id ∈ ids, mask w gs id ≠ 0#w ∧ k < gs.length ∧
      ∃ pos, shiftMask gs id k = some pos ∧
        ((reg id &&& mask w gs id) ^^^ inverted w gs id).getLsbD pos = true := by
  unfold softGet
  induction ids using List.reverseRecOn with
  | nil => simp
  | append_singleton ids id ih =>
      rw [List.foldl_append]
      simp only [List.foldl_cons, List.foldl_nil, List.mem_append, List.mem_singleton, or_and_right, exists_or,
        exists_eq_left]
      by_cases hm : mask w gs id = 0#w
      · simp only [hm, if_true, ne_eq, not_true_eq_false, false_and, or_false]
        exact ih
      · simp only [hm, if_false, soft_inner gs id _ _ gs.length k hk]
        rw [ih]
        simp [hm]

end GpioPinsLemmas
