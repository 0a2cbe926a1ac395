import Verif.Model.BitOps
import Verif.Spec.Bits
import Mathlib.Tactic.IntervalCases
set_option autoImplicit false
set_option linter.unusedSimpArgs false
/- Properties C18, C19, C20. -/
namespace Props
open Modm.BitOps Spec.Bits

theorem app44 (h l : BitVec 4) (i : Nat) : @BitVec.getLsbD 8 (h ++ l) i =
    if i < 4 then l.getLsbD i else h.getLsbD (i - 4) := BitVec.getLsbD_append
theorem app88 (h l : BitVec 8) (i : Nat) : @BitVec.getLsbD 16 (h ++ l) i =
    if i < 8 then l.getLsbD i else h.getLsbD (i - 8) := BitVec.getLsbD_append
theorem app168 (h : BitVec 16) (l : BitVec 8) (i : Nat) : @BitVec.getLsbD 24 (h ++ l) i =
    if i < 8 then l.getLsbD i else h.getLsbD (i - 8) := BitVec.getLsbD_append
theorem app248 (h : BitVec 24) (l : BitVec 8) (i : Nat) : @BitVec.getLsbD 32 (h ++ l) i =
    if i < 8 then l.getLsbD i else h.getLsbD (i - 8) := BitVec.getLsbD_append

/-- C18: bit reversal of a byte. -/
theorem C18_bitReverse8 (n : BitVec 8) (i : Nat) (hi : i < 8) :
    (bitReverse8 n).getLsbD i = n.getLsbD (7 - i) := by
  interval_cases i <;> simp [bitReverse8, swap8]

/-- C18: bit reversal of a 16-bit value. -/
theorem C18_bitReverse16 (n : BitVec 16) (i : Nat) (hi : i < 16) :
    (bitReverse16 n).getLsbD i = n.getLsbD (15 - i) := by
  interval_cases i <;> simp [bitReverse16, swap16]

/-- C18: bit reversal of a 32-bit value. -/
theorem C18_bitReverse32 (n : BitVec 32) (i : Nat) (hi : i < 32) :
    (bitReverse32 n).getLsbD i = n.getLsbD (31 - i) := by
  interval_cases i <;> simp [bitReverse32]

/-- C20: the nibble swap exchanges the two halves of a byte. -/
theorem C20_swap8 (h l : BitVec 4) : swap8 (h ++ l) = l ++ h := by
  apply BitVec.eq_of_getLsbD_eq
  intro i hi
  interval_cases i <;> simp [swap8, -BitVec.getLsbD_eq_getElem, app44, app88, app168, app248]

/-- C20: the 16-bit swap reverses the bytes. -/
theorem C20_swap16 (h l : BitVec 8) : swap16 (h ++ l) = l ++ h := by
  apply BitVec.eq_of_getLsbD_eq
  intro i hi
  interval_cases i <;> simp [swap16, -BitVec.getLsbD_eq_getElem, app44, app88, app168, app248]

/-- C20: the 32-bit swap reverses the bytes. -/
theorem C20_swap32 (a b c d : BitVec 8) : swap32 (a ++ b ++ c ++ d) = d ++ c ++ b ++ a := by
  apply BitVec.eq_of_getLsbD_eq
  intro i hi
  interval_cases i <;> simp [swap32, -BitVec.getLsbD_eq_getElem, app44, app88, app168, app248]

/-- C20: all three are their own inverse, so converting to big endian and back is the identity, and the
big-endian value has the most significant byte at the lowest address. -/
theorem C20_swap_involutive (x : BitVec 8) (y : BitVec 16) (z : BitVec 32) :
    swap8 (swap8 x) = x ∧ fromBigEndian16 (toBigEndian16 y) = y ∧ fromBigEndian32 (toBigEndian32 z) = z := by
  refine ⟨?_, ?_, ?_⟩ <;> apply BitVec.eq_of_getLsbD_eq <;> intro i hi
  · interval_cases i <;> simp [swap8]
  · interval_cases i <;> simp [swap16, fromBigEndian16, toBigEndian16]
  · interval_cases i <;> simp [swap32, fromBigEndian32, toBigEndian32]

/-- C20: the memory image of a big-endian converted value lists its bytes from the most significant one. -/
theorem C20_bigEndian_memory (y : BitVec 16) (z : BitVec 32) (k : Nat) (hk : k < 4) :
    (k < 2 → memByte (toBigEndian16 y) k = (y >>> (8 * (1 - k))).setWidth 8) ∧
    memByte (toBigEndian32 z) k = (z >>> (8 * (3 - k))).setWidth 8 := by
  constructor
  · intro hk2
    apply BitVec.eq_of_getLsbD_eq; intro i hi
    interval_cases k <;> interval_cases i <;> simp [memByte, swap16, toBigEndian16]
  · apply BitVec.eq_of_getLsbD_eq; intro i hi
    interval_cases k <;> interval_cases i <;> simp [memByte, swap32, toBigEndian32]

example : swap32 0xabcdef12#32 = 0x12efcdab#32 ∧ bitReverse8 0b01110100#8 = 0b00101110#8 := by decide

-- C19
/-- C19: number of one bits of a byte (all 256 arguments checked by the kernel). -/
theorem C19_bitCount8 (n : BitVec 8) : bitCount8 n = ones n := by
  revert n; decide +kernel

theorem onesBelow_congr {w v : Nat} (a : BitVec w) (b : BitVec v) (s : Nat) (k : Nat)
    (h : ∀ i, i < k → a.getLsbD (s + i) = b.getLsbD i) : 
    onesBelow a (s + k) = onesBelow a s + onesBelow b k := by
  induction k with
  | zero => simp [onesBelow]
  | succ k ih =>
    rw [show s + (k + 1) = (s + k) + 1 from rfl]
    simp only [onesBelow]
    rw [ih (fun i hi => h i (by omega)), h k (by omega)]; omega

/-- C19: number of one bits of a 16-bit value. -/
theorem C19_bitCount16 (n : BitVec 16) : bitCount16 n = ones n := by
  unfold bitCount16
  rw [C19_bitCount8, C19_bitCount8]
  have h1 := onesBelow_congr n (n.setWidth 8) 0 8 (by intro i hi; simp [hi])
  have h2 := onesBelow_congr n ((n >>> 8).setWidth 8) 8 8 (by intro i hi; simp [hi])
  unfold ones
  simp only [Nat.zero_add, onesBelow, Nat.reduceAdd] at h1 h2 ⊢
  omega

/-- the three folding steps of the 32-bit algorithm on one byte -/
def fold1 (x : BitVec 8) : BitVec 8 := ((x >>> 1) &&& 0x55#8) + (x &&& 0x55#8)
def fold2 (x : BitVec 8) : BitVec 8 := ((x >>> 2) &&& 0x33#8) + (x &&& 0x33#8)
def fold4 (x : BitVec 8) : BitVec 8 := ((x >>> 4) &&& 0x0f#8) + (x &&& 0x0f#8)

theorem add_append {w : Nat} (xh yh : BitVec w) (xl yl : BitVec 8) (h : xl.toNat + yl.toNat < 256) :
    (xh ++ xl) + (yh ++ yl) = (xh + yh) ++ (xl + yl) := by
  have key : ∀ (a : BitVec w) (b : BitVec 8), (a ++ b).toNat = a.toNat * 256 + b.toNat := by
    intro a b
    rw [BitVec.toNat_append, ← Nat.shiftLeft_add_eq_or_of_lt b.isLt, Nat.shiftLeft_eq]
  apply BitVec.eq_of_toNat_eq
  rw [BitVec.toNat_add, key, key, key, BitVec.toNat_add, BitVec.toNat_add]
  rw [show 2 ^ 8 = 256 from rfl, Nat.mod_eq_of_lt h, Nat.pow_add, show 2 ^ 8 = 256 from rfl]
  rw [show xh.toNat * 256 + xl.toNat + (yh.toNat * 256 + yl.toNat)
    = (xl.toNat + yl.toNat) + 256 * (xh.toNat + yh.toNat) by omega, Nat.mul_comm (2 ^ w) 256]
  rw [Nat.mod_mul, Nat.add_mul_mod_self_left, Nat.mod_eq_of_lt h]
  rw [Nat.add_mul_div_left _ _ (by decide), Nat.div_eq_of_lt h, Nat.zero_add]
  omega

theorem and_bound (x m : BitVec 8) : (x &&& m).toNat ≤ m.toNat := by
  rw [BitVec.toNat_and]; exact Nat.and_le_right

theorem append_split (n : BitVec 32) :
    n = (n >>> 24).setWidth 8 ++ (n >>> 16).setWidth 8 ++ (n >>> 8).setWidth 8 ++ n.setWidth 8 := by
  apply BitVec.eq_of_getLsbD_eq; intro i hi
  interval_cases i <;> simp [-BitVec.getLsbD_eq_getElem, app44, app88, app168, app248]

/-- the folding steps act on each byte separately -/
theorem fold_bytes (m8 : BitVec 8) (s : Nat) (a b c d : BitVec 8) (h : m8.toNat + m8.toNat < 256)
    (m32 : BitVec 32) (hm : m32 = m8 ++ m8 ++ m8 ++ m8)
    (hs : ((a ++ b ++ c ++ d) >>> s) &&& m32 =
      ((a >>> s) &&& m8) ++ ((b >>> s) &&& m8) ++ ((c >>> s) &&& m8) ++ ((d >>> s) &&& m8)) :
    (((a ++ b ++ c ++ d) >>> s) &&& m32) + ((a ++ b ++ c ++ d) &&& m32) =
      (((a >>> s) &&& m8) + (a &&& m8)) ++ (((b >>> s) &&& m8) + (b &&& m8)) ++
      (((c >>> s) &&& m8) + (c &&& m8)) ++ (((d >>> s) &&& m8) + (d &&& m8)) := by
  have h2 : (a ++ b ++ c ++ d) &&& m32 = (a &&& m8) ++ (b &&& m8) ++ (c &&& m8) ++ (d &&& m8) := by
    subst hm
    simp only [← BitVec.and_append]
  have bd : ∀ x y : BitVec 8, (x &&& m8).toNat + (y &&& m8).toNat < 256 := by
    intro x y
    have := and_bound x m8; have := and_bound y m8; omega
  rw [hs, h2, add_append _ _ _ _ (bd _ _), add_append _ _ _ _ (bd _ _), add_append _ _ _ _ (bd _ _)]

theorem fold_all (x : BitVec 8) : (fold4 (fold2 (fold1 x))).toNat = ones x ∧ ones x ≤ 8 := by
  revert x; decide +kernel

theorem bitCount32_bytes (a b c d : BitVec 8) :
    bitCount32 (a ++ b ++ c ++ d) = ones a + ones b + ones c + ones d := by
  simp only [bitCount32]
  rw [fold_bytes 0x55#8 1 a b c d (by decide) _ (by decide) (by
    apply BitVec.eq_of_getLsbD_eq; intro i hi
    interval_cases i <;> simp [-BitVec.getLsbD_eq_getElem, app44, app88, app168, app248])]
  rw [fold_bytes 0x33#8 2 _ _ _ _ (by decide) _ (by decide) (by
    apply BitVec.eq_of_getLsbD_eq; intro i hi
    interval_cases i <;> simp [-BitVec.getLsbD_eq_getElem, app44, app88, app168, app248])]
  rw [fold_bytes 0x0f#8 4 _ _ _ _ (by decide) _ (by decide) (by
    apply BitVec.eq_of_getLsbD_eq; intro i hi
    interval_cases i <;> simp [-BitVec.getLsbD_eq_getElem, app44, app88, app168, app248])]
  have key : ∀ {w : Nat} (a : BitVec w) (b : BitVec 8), (a ++ b).toNat = a.toNat * 256 + b.toNat := by
    intro w a b
    rw [BitVec.toNat_append, ← Nat.shiftLeft_add_eq_or_of_lt b.isLt, Nat.shiftLeft_eq]
  have ha := fold_all a; have hb := fold_all b; have hc := fold_all c; have hd := fold_all d
  unfold fold4 fold2 fold1 at ha hb hc hd
  simp only [key]
  rw [ha.1, hb.1, hc.1, hd.1]
  omega

/-- C19: number of one bits of a 32-bit value. -/
theorem C19_bitCount32 (n : BitVec 32) : bitCount32 n = ones n := by
  have h := append_split n
  have h1 := onesBelow_congr n (n.setWidth 8) 0 8 (by intro i hi; simp [hi])
  have h2 := onesBelow_congr n ((n >>> 8).setWidth 8) 8 8 (by intro i hi; simp [hi])
  have h3 := onesBelow_congr n ((n >>> 16).setWidth 8) 16 8 (by intro i hi; simp [hi])
  have h4 := onesBelow_congr n ((n >>> 24).setWidth 8) 24 8 (by intro i hi; simp [hi])
  have e : bitCount32 n = ones ((n >>> 24).setWidth 8) + ones ((n >>> 16).setWidth 8)
      + ones ((n >>> 8).setWidth 8) + ones (n.setWidth 8) := by
    conv_lhs => rw [h]
    exact bitCount32_bytes _ _ _ _
  rw [e]
  unfold ones
  have z : onesBelow n 0 = 0 := rfl
  simp only [Nat.reduceAdd] at h1 h2 h3 h4
  omega

example : bitCount32 0xffffffff#32 = 32 ∧ bitCount16 0x8001#16 = 2 := by decide

theorem helper_log (v : Nat) : (v = 0 ∧ leftmostBitHelper v = 0) ∨
    (∃ k, leftmostBitHelper v = k + 1 ∧ 2 ^ k ≤ v ∧ v < 2 ^ (k + 1)) := by
  induction v using Nat.strongRecOn with
  | ind v ih =>
    by_cases h0 : v = 0
    · left; subst h0; exact ⟨rfl, by rw [leftmostBitHelper]; simp⟩
    · right
      rw [leftmostBitHelper]
      simp only [h0, dite_false]
      rw [Nat.shiftRight_eq_div_pow]
      rcases ih (v / 2 ^ 1) (by omega) with ⟨h1, h2⟩ | ⟨k, h1, h2, h3⟩
      · exact ⟨0, by omega, by omega, by omega⟩
      · refine ⟨k + 1, by omega, ?_, ?_⟩
        · rw [Nat.pow_succ]; omega
        · rw [Nat.pow_succ]; omega

/-- C19: `leftmostBit` is -1 for zero, otherwise the position of the highest one bit. -/
theorem C19_leftmostBit (v : BitVec 32) :
    (v = 0#32 ∧ leftmostBit v = -1) ∨
    (∃ k : Nat, leftmostBit v = k ∧ v.getLsbD k = true ∧ ∀ j, k < j → v.getLsbD j = false) := by
  unfold leftmostBit
  rcases helper_log v.toNat with ⟨h1, h2⟩ | ⟨k, h1, h2, h3⟩
  · left
    exact ⟨BitVec.eq_of_toNat_eq (by simpa using h1), by omega⟩
  · right
    refine ⟨k, by omega, ?_, fun j hj => ?_⟩
    · rw [BitVec.getLsbD, Nat.testBit_eq_decide_div_mod_eq]
      have : v.toNat / 2 ^ k = 1 := by
        apply Nat.div_eq_of_lt_le
        · omega
        · rw [Nat.pow_succ] at h3; omega
      simp [this]
    · rw [BitVec.getLsbD]
      apply Nat.testBit_lt_two_pow
      exact Nat.lt_of_lt_of_le h3 (Nat.pow_le_pow_right (by decide) hj)

example : leftmostBit 0x00012345#32 = 16 ∧ leftmostBit 0#32 = -1 := by
  constructor <;> simp [leftmostBit, leftmostBitHelper]

end Props
