import Verif.Model.Crc
import Verif.Lemmas.Crc
import Mathlib.Tactic.IntervalCases
set_option autoImplicit false
set_option linter.unusedSimpArgs false
/- Properties C21, C22, C23. -/
namespace Props
open Modm.Crc Spec.Crc Lemmas.Crc Polynomial

/-! ### C22 -/

theorem crc16_bits (r : BitVec 16) (d : BitVec 8) :
    crc16_ccitt_update r d = (byteBits d).foldl (bstep 0x8408#16) r := by
  rw [byte_table _ _ (by decide)]
  have htab : ∀ x : BitVec 8, zsteps 0x8408#16 8 (x.setWidth 16) =
      ((x ^^^ (x <<< 4)).setWidth 16 <<< 8) ^^^ ((x ^^^ (x <<< 4)) >>> 4).setWidth 16 ^^^
        ((x ^^^ (x <<< 4)).setWidth 16 <<< 3) := by decide +kernel
  rw [htab]
  have hor : ∀ (a : BitVec 8), (a.setWidth 16 <<< 8) ||| ((r >>> 8).setWidth 8).setWidth 16 =
      (r >>> 8) ^^^ (a.setWidth 16 <<< 8) := by
    intro a
    apply BitVec.eq_of_getLsbD_eq
    intro i hi
    simp only [BitVec.getLsbD_or, BitVec.getLsbD_xor, BitVec.getLsbD_shiftLeft, BitVec.getLsbD_setWidth,
      BitVec.getLsbD_ushiftRight]
    by_cases h : i < 8
    · simp [h, hi]
    · have : r.getLsbD (8 + i) = false := BitVec.getLsbD_of_ge _ _ (by omega)
      simp [h, this]
  unfold crc16_ccitt_update
  simp only [hor]
  rw [BitVec.xor_comm d]
  simp only [BitVec.xor_assoc]

theorem crc16_fold (m : List (BitVec 8)) (r : BitVec 16) :
    m.foldl crc16_ccitt_update r = (bits m).foldl (bstep 0x8408#16) r := by
  rw [foldl_bits]
  congr 1
  funext r b; exact crc16_bits r b

/-- C22: feeding any message from any register state leaves the remainder of the polynomial division by the
CCITT generator (see `C22_generator`). -/
theorem C22_crc16_is_remainder (r : BitVec 16) (m : List (BitVec 8)) :
    regPoly (m.foldl crc16_ccitt_update r) =
      (regPoly r * X ^ (bits m).length + msgPoly (bits m) * X ^ 16) %ₘ gen 0x8408#16 := by
  rw [crc16_fold]; exact foldl_mod (by decide) _ _ _

/-- C22: the whole checksum `crc16_ccitt`: the register starts as X^15 + ... + 1 and is not inverted at the end. -/
theorem C22_crc16_value (m : List (BitVec 8)) :
    regPoly (crc16_ccitt m) =
      ((∑ i ∈ Finset.range 16, X ^ i) * X ^ (8 * m.length) + msgPoly (bits m) * X ^ 16) %ₘ gen 0x8408#16 := by
  have hb : (bits m).length = 8 * m.length := by
    induction m with
    | nil => rfl
    | cons b m ih => simp only [bits, List.flatMap_cons, List.length_append] at *; rw [ih]; simp [byteBits]; omega
  have ho : regPoly 0xFFFF#16 = (∑ i ∈ Finset.range 16, X ^ i : F2[X]) := by
    simp [regPoly, Finset.sum_range_succ, co]
  unfold crc16_ccitt
  rw [C22_crc16_is_remainder, ho, hb]

/-- C22: the generator is X^16 + X^12 + X^5 + 1. -/
theorem C22_generator : gen 0x8408#16 = X ^ 16 + X ^ 12 + X ^ 5 + (1 : F2[X]) := by
  simp [gen, regPoly, Finset.sum_range_succ, co]; ring

/-- C22: the register is determined by that remainder. -/
theorem C22_crc16_remainder_determines {w : Nat} (a b : BitVec w) (h : regPoly a = regPoly b) : a = b :=
  regPoly_inj h

/-- C22: the checksum distinguishes two messages that differ in one or two adjacent bytes, at any position of
messages of any length, from any register state. -/
theorem C22_crc16_detects_two_bytes (r : BitVec 16) (pre post : List (BitVec 8)) (x y : List (BitVec 8))
    (hl : x.length = y.length) (h2 : x.length ≤ 2) (hne : x ≠ y) :
    (pre ++ x ++ post).foldl crc16_ccitt_update r ≠ (pre ++ y ++ post).foldl crc16_ccitt_update r := by
  rw [crc16_fold, crc16_fold]
  have hb : ∀ m : List (BitVec 8), (bits m).length = 8 * m.length := by
    intro m; induction m with
    | nil => rfl
    | cons b m ih => simp only [bits, List.flatMap_cons, List.length_append] at *; rw [ih]; simp [byteBits]; omega
  have happ : ∀ a b : List (BitVec 8), bits (a ++ b) = bits a ++ bits b := by
    intro a b; simp [bits]
  rw [happ, happ, happ, happ]
  apply burst (by decide) (by decide)
  · rw [hb, hb, hl]
  · rw [hb]; omega
  · intro h
    apply hne
    clear happ
    induction x generalizing y with
    | nil => cases y with
      | nil => rfl
      | cons => simp at hl
    | cons a x ih => cases y with
      | nil => simp at hl
      | cons b y =>
        simp only [bits, List.flatMap_cons] at h
        obtain ⟨h1, h3⟩ := List.append_inj h (by simp [byteBits])
        have hab : a = b := by
          apply BitVec.eq_of_getLsbD_eq; intro i hi
          have := congrArg (fun l => l[i]?) h1
          simpa [byteBits, hi] using this
        rw [hab, ih y (by simpa using hl) (by simp at h2; omega) (fun h => hne (by rw [hab, h])) h3]

/-- C22: the update is linear: the xor of two runs is the run of the xors. -/
theorem C22_crc16_linear (r s : BitVec 16) (a b : BitVec 8) :
    crc16_ccitt_update (r ^^^ s) (a ^^^ b) = crc16_ccitt_update r a ^^^ crc16_ccitt_update s b := by
  simp only [crc16_bits]
  rw [foldl_eq_zsteps _ _ _ (by simp [byteBits]), foldl_eq_zsteps _ _ _ (by simp [byteBits]),
    foldl_eq_zsteps _ _ _ (by simp [byteBits])]
  simp only [byteBits_length, pack_byteBits, BitVec.setWidth_xor]
  rw [← zsteps_xor]
  congr 1
  ac_rfl

example : crc16_ccitt ("123456789".toList.map fun c => BitVec.ofNat 8 c.toNat) = 0x6f91#16 := by decide +kernel

/-! ### C23 -/

theorem crc32Step_eq (r : BitVec 32) : crc32Step r = zstep 0xEDB88320#32 r := by
  unfold crc32Step zstep
  congr 1
  have h1 : r &&& 1#32 = if r.getLsbD 0 then 1#32 else 0#32 := by
    apply BitVec.eq_of_getLsbD_eq; intro i hi
    rw [BitVec.getLsbD_and]
    cases i with
    | zero => cases h : r.getLsbD 0 <;> simp
    | succ i =>
      have : (1#32).getLsbD (i + 1) = false := by simp [BitVec.getLsbD_ofNat, Nat.testBit_succ]
      rw [this]; split <;> simp
  rw [h1]; split <;> decide

theorem loop_zsteps {w : Nat} (p : BitVec w) (f : BitVec w → BitVec w) (hf : ∀ r, f r = zstep p r) (n : Nat) :
    ∀ r, loop f n r = zsteps p n r := by
  induction n with
  | zero => intro r; rfl
  | succ n ih => intro r; rw [loop, zsteps, ih, hf]

theorem crc32_bits (r : BitVec 32) (d : BitVec 8) :
    crc32_update r d = (byteBits d).foldl (bstep 0xEDB88320#32) r := by
  rw [foldl_eq_zsteps _ _ _ (by simp [byteBits]), byteBits_length, pack_byteBits, crc32_update,
    loop_zsteps _ _ crc32Step_eq]

theorem crc32_fold (m : List (BitVec 8)) (r : BitVec 32) :
    m.foldl crc32_update r = (bits m).foldl (bstep 0xEDB88320#32) r := by
  rw [foldl_bits]
  congr 1
  funext r b; exact crc32_bits r b

/-- C23: feeding any message from any register state leaves the remainder of the polynomial division. -/
theorem C23_crc32_is_remainder (r : BitVec 32) (m : List (BitVec 8)) :
    regPoly (m.foldl crc32_update r) =
      (regPoly r * X ^ (bits m).length + msgPoly (bits m) * X ^ 32) %ₘ gen 0xEDB88320#32 := by
  rw [crc32_fold]; exact foldl_mod (by decide) _ _ _

/-- C23: the generator is the IEEE 802.3 polynomial. -/
theorem C23_generator : gen 0xEDB88320#32 = X ^ 32 + X ^ 26 + X ^ 23 + X ^ 22 + X ^ 16 + X ^ 12 + X ^ 11 +
    X ^ 10 + X ^ 8 + X ^ 7 + X ^ 5 + X ^ 4 + X ^ 2 + X + (1 : F2[X]) := by
  simp [gen, regPoly, Finset.sum_range_succ, co]; ring

theorem bits_length (m : List (BitVec 8)) : (bits m).length = 8 * m.length := by
  induction m with
  | nil => rfl
  | cons b m ih => simp only [bits, List.flatMap_cons, List.length_append] at *; rw [ih]; simp [byteBits]; omega

theorem bits_append (a b : List (BitVec 8)) : bits (a ++ b) = bits a ++ bits b := by simp [bits]

theorem byteBits_inj {a b : BitVec 8} (h : byteBits a = byteBits b) : a = b := by
  apply BitVec.eq_of_getLsbD_eq; intro i hi
  have := congrArg (fun l => l[i]?) h
  simpa [byteBits, hi] using this

theorem bits_inj (x : List (BitVec 8)) : ∀ y, x.length = y.length → bits x = bits y → x = y := by
  induction x with
  | nil => intro y hl _; cases y with
    | nil => rfl
    | cons => simp at hl
  | cons a x ih => intro y hl h; cases y with
    | nil => simp at hl
    | cons b y =>
      simp only [bits, List.flatMap_cons] at h
      obtain ⟨h1, h3⟩ := List.append_inj h (by simp [byteBits])
      rw [byteBits_inj h1, ih y (by simpa using hl) h3]

/-- C23: the whole checksum `crc32`: the register starts as X^31 + ... + 1 and the result is inverted. -/
theorem C23_crc32_value (m : List (BitVec 8)) :
    regPoly (~~~ crc32 m) =
      ((∑ i ∈ Finset.range 32, X ^ i) * X ^ (8 * m.length) + msgPoly (bits m) * X ^ 32) %ₘ gen 0xEDB88320#32 := by
  have ho : regPoly 0xFFFFFFFF#32 = (∑ i ∈ Finset.range 32, X ^ i : F2[X]) := by
    simp [regPoly, Finset.sum_range_succ, co]
  unfold crc32
  rw [BitVec.not_not, C23_crc32_is_remainder, ho, bits_length]

/-- C23: two messages that differ only within at most four adjacent bytes have different checksums. -/
theorem C23_crc32_detects_four_bytes (pre post x y : List (BitVec 8)) (hl : x.length = y.length)
    (h4 : x.length ≤ 4) (hne : x ≠ y) : crc32 (pre ++ x ++ post) ≠ crc32 (pre ++ y ++ post) := by
  unfold crc32
  intro h
  have h' := congrArg (fun v => ~~~ v) h
  simp only [BitVec.not_not] at h'
  rw [crc32_fold, crc32_fold, bits_append, bits_append, bits_append, bits_append] at h'
  refine burst (by decide) (by decide) _ _ _ _ _ ?_ ?_ ?_ h'
  · rw [bits_length, bits_length, hl]
  · rw [bits_length]; omega
  · exact fun h => hne (bits_inj x y hl h)

/-- little-endian bytes of a 32-bit value -/
def le32 (v : BitVec 32) : List (BitVec 8) :=
  [v.setWidth 8, (v >>> 8).setWidth 8, (v >>> 16).setWidth 8, (v >>> 24).setWidth 8]

theorem pack_le32 (v : BitVec 32) : pack 32 (bits (le32 v)) = v := by
  apply BitVec.eq_of_getLsbD_eq
  intro i hi
  rw [pack_getLsbD _ i hi]
  have : bits (le32 v) = (List.range 32).map v.getLsbD := by
    apply List.ext_getElem
    · simp [bits, le32, byteBits]
    · intro j h1 h2
      simp only [List.length_map, List.length_range] at h2
      simp only [bits, le32, List.flatMap_cons, List.flatMap_nil, byteBits, List.append_nil, List.getElem_map,
        List.getElem_range]
      simp only [List.range, List.range.loop, List.map_cons, List.map_nil, List.cons_append, List.nil_append]
      interval_cases j <;> simp
  rw [this]
  simp [hi]

/-- C23: a message followed by its own checksum (least significant byte first) always has the same checksum, so
a receiver can check a frame without splitting it. -/
theorem C23_crc32_residue (m : List (BitVec 8)) : crc32 (m ++ le32 (crc32 m)) = 0x2144DF1C#32 := by
  have hu : ∀ l, crc32 l = ~~~(l.foldl crc32_update 0xFFFFFFFF#32) := fun _ => rfl
  rw [hu (m ++ _), List.foldl_append, crc32_fold (le32 _), foldl_eq_zsteps _ _ _ (by rw [bits_length]; simp [le32]),
    pack_le32, bits_length]
  have : (m.foldl crc32_update 0xFFFFFFFF#32) ^^^ crc32 m = 0xFFFFFFFF#32 := by
    unfold crc32
    apply BitVec.eq_of_getLsbD_eq; intro i hi
    rw [BitVec.getLsbD_xor, BitVec.getLsbD_not, show (0xFFFFFFFF#32) = BitVec.allOnes 32 by decide,
      BitVec.getLsbD_allOnes]
    simp [hi]
  rw [this]
  have : 8 * (le32 (crc32 m)).length = 32 := rfl
  rw [this]
  decide +kernel

example : crc32 ("123456789".toList.map fun c => BitVec.ofNat 8 c.toNat) = 0xCBF43926#32 := by decide +kernel

/-! ### C21 -/

/-- C21 is false of the portable branch: bytes that differ only in bit 7 have the same checksum, whatever the
register state; so a single-bit error goes undetected. -/
theorem C21_crc8_misses_bit7_counterexample (crc data : BitVec 8) :
    crc8_ccitt_update crc (data ^^^ 0x80#8) = crc8_ccitt_update crc data := by
  have h : ∀ x : BitVec 8, loop crc8Step 8 (x ^^^ 0x80#8) = loop crc8Step 8 x := by decide +kernel
  unfold crc8_ccitt_update
  rw [← h (data ^^^ crc)]
  congr 1
  ac_rfl

/-- C21 is false: the result is not the CRC-8-CCITT value (X^8+X^2+X+1, most significant bit first). The
long division itself, one byte: -/
theorem C21_crc8_not_ccitt_counterexample :
    crc8_ccitt_update 0x00#8 0x01#8 ≠
      loop (fun r : BitVec 8 => (r <<< 1) ^^^ (if r.getLsbD 7 then 0x07#8 else 0x00#8)) 8 0x01#8 ∧
    crc8_ccitt_update 0x00#8 0x80#8 = 0x00#8 := by decide

/-- C21 (what does hold): a change of one byte anywhere in a message of any length changes the checksum exactly
when the two bytes differ in some bit other than bit 7. Missing: bit 7, and agreement with the standard CRC. -/
theorem C21_crc8_detects_low_bits_partial (pre post : List (BitVec 8)) (x y : BitVec 8) :
    crc8_ccitt (pre ++ x :: post) = crc8_ccitt (pre ++ y :: post) ↔ x.setWidth 7 = y.setWidth 7 := by
  have hlin : ∀ n (a b : BitVec 8), loop crc8Step n (a ^^^ b) = loop crc8Step n a ^^^ loop crc8Step n b := by
    intro n
    induction n with
    | zero => intro a b; rfl
    | succ n ih =>
      intro a b
      have hs : ∀ a b : BitVec 8, crc8Step (a ^^^ b) = crc8Step a ^^^ crc8Step b := by
        intro a b
        have e : ∀ c : BitVec 8, crc8Step c = (c <<< 1) ^^^ (if c.getLsbD 6 then 7#8 else 0#8) := by
          decide +kernel
        rw [e, e, e, BitVec.shiftLeft_xor_distrib, BitVec.getLsbD_xor]
        cases a.getLsbD 6 <;> cases b.getLsbD 6 <;> simp only [Bool.xor_self, Bool.false_bne, Bool.true_bne,
          Bool.xor_false, Bool.xor_true, Bool.not_true, Bool.not_false, if_true, if_false, Bool.false_eq_true,
          BitVec.xor_zero] <;> try ac_rfl
        rw [show (a <<< 1 ^^^ 7#8) ^^^ (b <<< 1 ^^^ 7#8) = (a <<< 1 ^^^ b <<< 1) ^^^ (7#8 ^^^ 7#8) by ac_rfl]
        simp
      simp only [loop, hs, ih]
  have hz : ∀ d : BitVec 8, loop crc8Step 8 d = 0#8 ↔ d = 0#8 ∨ d = 0x80#8 := by decide +kernel
  have hn : ∀ d : BitVec 8, loop crc8Step 8 d ≠ 0x80#8 := by decide +kernel
  have hx : ∀ a b : BitVec 8, a = b ↔ a ^^^ b = 0#8 := fun a b => xor_eq_zero.symm
  -- a difference of the register of 0 or more stays what it is unless it is exactly bit 7
  have step : ∀ (r s d e : BitVec 8), crc8_ccitt_update r d ^^^ crc8_ccitt_update s e
      = loop crc8Step 8 ((r ^^^ s) ^^^ (d ^^^ e)) := by
    intro r s d e
    unfold crc8_ccitt_update
    rw [← hlin]; congr 1; ac_rfl
  have post_inv : ∀ (post : List (BitVec 8)) (r s : BitVec 8), r ^^^ s ≠ 0x80#8 →
      (post.foldl crc8_ccitt_update r = post.foldl crc8_ccitt_update s ↔ r = s) := by
    intro post
    induction post with
    | nil => intro r s _; exact Iff.rfl
    | cons b post ih =>
      intro r s h
      have hd := step r s b b
      have h0 : (r ^^^ s) ^^^ (b ^^^ b) = r ^^^ s := by simp
      rw [h0] at hd
      rw [List.foldl_cons, List.foldl_cons, ih _ _ (by rw [hd]; exact hn _), hx, hd, hz, hx r s]
      simp [h]
  unfold crc8_ccitt
  rw [List.foldl_append, List.foldl_append, List.foldl_cons, List.foldl_cons]
  generalize pre.foldl crc8_ccitt_update 0xFF#8 = r
  have hd := step r r x y
  have h0 : (r ^^^ r) ^^^ (x ^^^ y) = x ^^^ y := by simp
  rw [h0] at hd
  rw [post_inv _ _ _ (by rw [hd]; exact hn _), hx, hd, hz]
  have hw : ∀ d : BitVec 8, (d = 0#8 ∨ d = 0x80#8) ↔ d.setWidth 7 = 0#7 := by decide +kernel
  rw [hw, BitVec.setWidth_xor, xor_eq_zero]

example : crc8_ccitt [0x12#8, 0x34#8] ≠ crc8_ccitt [0x12#8, 0x35#8] ∧
    crc8_ccitt [0x12#8, 0x34#8] = crc8_ccitt [0x12#8, 0xb4#8] := by decide +kernel

end Props
