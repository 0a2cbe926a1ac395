import Verif.Spec.Crc
import Mathlib.Tactic.Ring
import Mathlib.Tactic.LinearCombination
import Mathlib.Algebra.CharP.Two
set_option autoImplicit false
namespace Lemmas.Crc
open Polynomial Spec.Crc

variable {w : Nat}

/-- one step of the reflected register without input -/
def zstep (p r : BitVec w) : BitVec w := (r >>> 1) ^^^ (if r.getLsbD 0 then p else 0#w)

def bitv (w : Nat) (b : Bool) : BitVec w := if b then BitVec.ofNat w 1 else 0#w

/-- one step with input bit -/
def bstep (p r : BitVec w) (b : Bool) : BitVec w := zstep p (r ^^^ bitv w b)

def zsteps (p : BitVec w) : Nat → BitVec w → BitVec w
  | 0, r => r
  | k + 1, r => zsteps p k (zstep p r)

theorem zstep_xor (p a b : BitVec w) : zstep p (a ^^^ b) = zstep p a ^^^ zstep p b := by
  unfold zstep
  rw [BitVec.ushiftRight_xor_distrib, BitVec.getLsbD_xor]
  apply BitVec.eq_of_getLsbD_eq
  intro i hi
  cases a.getLsbD 0 <;> cases b.getLsbD 0 <;> simp <;>
    cases a.getLsbD (1 + i) <;> cases b.getLsbD (1 + i) <;> cases p.getLsbD i <;> rfl

theorem zstep_zero (p : BitVec w) : zstep p 0#w = 0#w := by simp [zstep]

theorem zsteps_xor (p : BitVec w) (k : Nat) : ∀ a b, zsteps p k (a ^^^ b) = zsteps p k a ^^^ zsteps p k b := by
  induction k with
  | zero => intro a b; rfl
  | succ k ih => intro a b; simp only [zsteps, zstep_xor, ih]

theorem zsteps_zero (p : BitVec w) (k : Nat) : zsteps p k 0#w = 0#w := by
  induction k with
  | zero => rfl
  | succ k ih => simp [zsteps, zstep_zero, ih]

/-- generator polynomials have constant term 1, i.e. the top bit of the reflected form is set -/
theorem zstep_eq_zero {p d : BitVec w} (hw : 0 < w) (hp : p.getLsbD (w - 1) = true) (h : zstep p d = 0#w) :
    d = 0#w := by
  have hb : d.getLsbD 0 = false := by
    have := congrArg (fun x => x.getLsbD (w - 1)) h
    simp only [zstep, BitVec.getLsbD_xor, BitVec.getLsbD_ushiftRight] at this
    cases hd : d.getLsbD 0 with
    | false => rfl
    | true =>
      simp only [hd, if_true, hp] at this
      have h0 : d.getLsbD (1 + (w - 1)) = false := BitVec.getLsbD_of_ge _ _ (by omega)
      rw [h0] at this; simp at this
  have h2 : d >>> 1 = 0#w := by simpa [zstep, hb] using h
  apply BitVec.eq_of_getLsbD_eq
  intro i hi
  cases i with
  | zero => simpa using hb
  | succ i =>
    have := congrArg (fun x => x.getLsbD i) h2
    simp only [BitVec.getLsbD_ushiftRight] at this
    rw [Nat.add_comm] at this; simpa using this

theorem xor_eq_zero {a b : BitVec w} : a ^^^ b = 0#w ↔ a = b := by
  constructor
  · intro h
    have : (a ^^^ b) ^^^ b = 0#w ^^^ b := by rw [h]
    simpa [BitVec.xor_assoc] using this
  · rintro rfl; simp

theorem zstep_inj {p a b : BitVec w} (hw : 0 < w) (hp : p.getLsbD (w - 1) = true)
    (h : zstep p a = zstep p b) : a = b := by
  apply xor_eq_zero.1
  apply zstep_eq_zero hw hp
  rw [zstep_xor, h]; simp

theorem zsteps_inj {p : BitVec w} (hw : 0 < w) (hp : p.getLsbD (w - 1) = true) (k : Nat) : ∀ {a b : BitVec w},
    zsteps p k a = zsteps p k b → a = b := by
  induction k with
  | zero => intro a b h; exact h
  | succ k ih => intro a b h; exact zstep_inj hw hp (ih h)

theorem foldl_inj {p : BitVec w} (hw : 0 < w) (hp : p.getLsbD (w - 1) = true) (bs : List Bool) :
    ∀ {a b : BitVec w}, bs.foldl (bstep p) a = bs.foldl (bstep p) b → a = b := by
  induction bs with
  | nil => intro a b h; exact h
  | cons c bs ih =>
    intro a b h
    have := zstep_inj hw hp (ih h)
    have h2 : (a ^^^ bitv w c) ^^^ bitv w c = (b ^^^ bitv w c) ^^^ bitv w c := by rw [this]
    simpa [BitVec.xor_assoc] using h2

/-- bits packed least significant first -/
def pack (w : Nat) : List Bool → BitVec w
  | [] => 0#w
  | b :: bs => bitv w b ^^^ (pack w bs <<< 1)

theorem getLsbD_bitv (b : Bool) (i : Nat) : (bitv w b).getLsbD i = (decide (i = 0) && decide (i < w) && b) := by
  cases b
  · simp [bitv]
  · simp only [bitv, if_true, BitVec.getLsbD_ofNat, Bool.and_true]
    cases i with
    | zero => simp
    | succ i =>
      have : Nat.testBit 1 (i+1) = false := by simp [Nat.testBit_succ]
      simp [this]

theorem pack_getLsbD (bs : List Bool) : ∀ i, i < w → (pack w bs).getLsbD i = bs.getD i false := by
  induction bs with
  | nil => intro i hi; simp [pack]
  | cons b bs ih =>
    intro i hi
    rw [pack, BitVec.getLsbD_xor, getLsbD_bitv, BitVec.getLsbD_shiftLeft]
    cases i with
    | zero => simp [hi]
    | succ i => simp [ih i (by omega), hi]

theorem pack_inj {a b : List Bool} (hl : a.length = b.length) (hw : a.length ≤ w) (h : pack w a = pack w b) :
    a = b := by
  apply List.ext_getElem hl
  intro i h1 h2
  have := congrArg (fun x => x.getLsbD i) h
  have e1 := pack_getLsbD (w := w) a i (by omega)
  have e2 := pack_getLsbD (w := w) b i (by omega)
  simp only [e1, e2] at this
  simpa [List.getD_eq_getElem?_getD, h1, h2] using this

theorem zstep_shl (p v : BitVec w) (h : v.getLsbD (w - 1) = false) : zstep p (v <<< 1) = v := by
  have h0 : (v <<< 1).getLsbD 0 = false := by simp
  rw [zstep, h0]
  apply BitVec.eq_of_getLsbD_eq
  intro i hi
  simp only [BitVec.getLsbD_xor, BitVec.getLsbD_ushiftRight, BitVec.getLsbD_shiftLeft]
  by_cases hi1 : 1 + i < w
  · have h1 : ¬ (1 + i < 1) := by omega
    simp [hi1]
  · have : i = w - 1 := by omega
    subst this
    simp [hi1, h]

/-- feeding at most `w` bits equals xoring them into the register and clocking -/
theorem foldl_eq_zsteps (p : BitVec w) (bs : List Bool) : ∀ (r : BitVec w), bs.length ≤ w →
    bs.foldl (bstep p) r = zsteps p bs.length (r ^^^ pack w bs) := by
  induction bs with
  | nil => intro r _; simp [zsteps, pack]
  | cons b bs ih =>
    intro r hl
    simp only [List.length_cons] at hl
    simp only [List.foldl_cons, List.length_cons, zsteps, pack]
    rw [ih _ (by omega)]
    congr 1
    rw [← BitVec.xor_assoc, zstep_xor p (r ^^^ bitv w b)]
    have : (pack w bs).getLsbD (w - 1) = false := by
      rw [pack_getLsbD bs _ (by omega)]
      simp only [List.getD_eq_getElem?_getD]
      rw [List.getElem?_eq_none (by omega)]; rfl
    rw [zstep_shl p _ this, bstep]

theorem zsteps_shr (p : BitVec w) (k : Nat) : ∀ (r : BitVec w), (∀ i, i < k → r.getLsbD i = false) →
    zsteps p k r = r >>> k := by
  induction k with
  | zero => intro r _; simp [zsteps]
  | succ k ih =>
    intro r h
    have hz : zstep p r = r >>> 1 := by rw [zstep, h 0 (by omega)]; simp
    simp only [zsteps, hz]
    rw [ih]
    · rw [← BitVec.shiftRight_add, Nat.add_comm]
    · intro i hi
      rw [BitVec.getLsbD_ushiftRight]
      exact h _ (by omega)

theorem byteBits_length (b : BitVec 8) : (byteBits b).length = 8 := rfl

theorem pack_byteBits (b : BitVec 8) : pack w (byteBits b) = b.setWidth w := by
  apply BitVec.eq_of_getLsbD_eq
  intro i hi
  rw [pack_getLsbD _ i hi, BitVec.getLsbD_setWidth]
  simp only [hi, decide_true, Bool.true_and, byteBits, List.getD_eq_getElem?_getD]
  by_cases h8 : i < 8
  · simp [h8]
  · rw [List.getElem?_eq_none (by simp; omega), BitVec.getLsbD_of_ge _ _ (by omega)]; rfl

/-- table form of one byte: shift the register down and add the table entry of the mixed low byte -/
theorem byte_table (p r : BitVec w) (hw : 8 ≤ w) (d : BitVec 8) :
    (byteBits d).foldl (bstep p) r =
      (r >>> 8) ^^^ zsteps p 8 ((r.setWidth 8 ^^^ d).setWidth w) := by
  rw [foldl_eq_zsteps p _ r (by rw [byteBits_length]; exact hw), byteBits_length, pack_byteBits]
  have hsplit : r = (r ^^^ (r.setWidth 8).setWidth w) ^^^ (r.setWidth 8).setWidth w := by
    rw [BitVec.xor_assoc]; simp
  have hhi : zsteps p 8 (r ^^^ (r.setWidth 8).setWidth w) = r >>> 8 := by
    rw [zsteps_shr]
    · rw [BitVec.ushiftRight_xor_distrib]
      have : (r.setWidth 8).setWidth w >>> 8 = 0#w := by
        apply BitVec.eq_of_getLsbD_eq; intro i hi
        simp only [BitVec.getLsbD_ushiftRight, BitVec.getLsbD_setWidth]
        rw [show decide (8 + i < 8) = false from decide_eq_false (by omega)]; simp
      rw [this, BitVec.xor_zero]
    · intro i hi
      simp only [BitVec.getLsbD_xor, BitVec.getLsbD_setWidth]
      simp [hi, show i < w by omega]
  have hlo : (r.setWidth 8 ^^^ d).setWidth w = (r.setWidth 8).setWidth w ^^^ d.setWidth w := by
    rw [BitVec.setWidth_xor]
  rw [hlo, ← hhi, ← zsteps_xor]
  congr 1
  rw [← BitVec.xor_assoc, ← hsplit]

theorem foldl_bits (p : BitVec w) (m : List (BitVec 8)) : ∀ r : BitVec w,
    (bits m).foldl (bstep p) r = m.foldl (fun r b => (byteBits b).foldl (bstep p) r) r := by
  induction m with
  | nil => intro r; rfl
  | cons b m ih => intro r; simp only [bits, List.flatMap_cons, List.foldl_append, List.foldl_cons]; exact ih _

/-! ### polynomial meaning -/

theorem co_xor (a b : Bool) : co (a ^^ b) = co a + co b := by
  cases a <;> cases b <;> simp [co, CharTwo.add_self_eq_zero]

theorem regPoly_xor (a b : BitVec w) : regPoly (a ^^^ b) = regPoly a + regPoly b := by
  unfold regPoly
  rw [← Finset.sum_add_distrib]
  apply Finset.sum_congr rfl
  intro i _
  rw [BitVec.getLsbD_xor, co_xor, add_mul]

theorem regPoly_zero : regPoly (0#w) = 0 := by simp [regPoly, co]

theorem regPoly_degree (r : BitVec w) : (regPoly r).degree < w := by
  unfold regPoly
  refine lt_of_le_of_lt (degree_sum_le _ _) ?_
  rw [Finset.sup_lt_iff (by exact_mod_cast WithBot.bot_lt_coe w)]
  intro i hi
  have hi' : i < w := Finset.mem_range.1 hi
  unfold co
  split
  · rw [one_mul]
    exact lt_of_le_of_lt (degree_X_pow_le i) (by exact_mod_cast hi')
  · rw [zero_mul, degree_zero]; exact WithBot.bot_lt_coe w

theorem gen_monic (p : BitVec w) : (gen p).Monic := monic_X_pow_add (regPoly_degree p)

theorem gen_degree (p : BitVec w) : (gen p).degree = w := by
  rw [gen, degree_add_eq_left_of_degree_lt, degree_X_pow]
  rw [degree_X_pow]; exact regPoly_degree p

theorem regPoly_shr (r : BitVec w) (hw : 0 < w) :
    regPoly (r >>> 1) = X * regPoly r + co (r.getLsbD 0) * X ^ w := by
  obtain ⟨n, rfl⟩ : ∃ n, w = n + 1 := ⟨w - 1, by omega⟩
  unfold regPoly
  rw [Finset.sum_range_succ']
  conv_rhs => rw [Finset.sum_range_succ]
  have h0 : (r >>> 1).getLsbD (n + 1 - 1 - 0) = false := by
    rw [BitVec.getLsbD_ushiftRight]; exact BitVec.getLsbD_of_ge _ _ (by omega)
  rw [h0]
  have hs : ∑ i ∈ Finset.range n, co ((r >>> 1).getLsbD (n + 1 - 1 - (i + 1))) * X ^ (i + 1)
      = X * ∑ i ∈ Finset.range n, co (r.getLsbD (n + 1 - 1 - i)) * X ^ i := by
    rw [Finset.mul_sum]
    apply Finset.sum_congr rfl
    intro i hi
    have hi' : i < n := Finset.mem_range.1 hi
    rw [BitVec.getLsbD_ushiftRight, show 1 + (n + 1 - 1 - (i + 1)) = n + 1 - 1 - i by omega]
    ring
  rw [hs]
  simp only [Nat.add_sub_cancel, Nat.sub_self]
  have h2 : (co (r.getLsbD 0) * X ^ (n+1) : F2[X]) + co (r.getLsbD 0) * X ^ (n+1) = 0 := CharTwo.add_self_eq_zero _
  simp only [co, Bool.false_eq_true, if_false, zero_mul, add_zero]
  simp only [co] at h2
  linear_combination - h2

theorem regPoly_bitv (hw : 0 < w) (b : Bool) : regPoly (bitv w b) = co b * X ^ (w - 1) := by
  unfold regPoly
  rw [Finset.sum_eq_single (w - 1)]
  · rw [getLsbD_bitv]; simp [hw]
  · intro i hi hne
    have : i < w := Finset.mem_range.1 hi
    rw [getLsbD_bitv, show decide (w - 1 - i = 0) = false from decide_eq_false (by omega)]
    simp [co]
  · intro h; exact absurd (Finset.mem_range.2 (by omega)) h

/-- one step of the register multiplies by X and adds the input at X^w, modulo the generator -/
theorem bstep_poly (hw : 0 < w) (p r : BitVec w) (b : Bool) : ∃ q,
    regPoly (bstep p r b) = regPoly r * X + co b * X ^ w + q * gen p := by
  refine ⟨co ((r ^^^ bitv w b).getLsbD 0), ?_⟩
  have hif : regPoly (if (r ^^^ bitv w b).getLsbD 0 then p else 0#w) =
      co ((r ^^^ bitv w b).getLsbD 0) * regPoly p := by
    split <;> rename_i h
    · rw [h]; simp [co]
    · rw [Bool.eq_false_of_not_eq_true h]; simp [co, regPoly_zero]
  rw [bstep, zstep, regPoly_xor, regPoly_shr _ hw, hif, regPoly_xor, regPoly_bitv hw, gen]
  have hx : (X : F2[X]) * (co b * X ^ (w - 1)) = co b * X ^ w := by
    obtain ⟨n, rfl⟩ : ∃ n, w = n + 1 := ⟨w - 1, by omega⟩
    simp only [Nat.add_sub_cancel]; ring
  rw [mul_add, hx]; ring

theorem foldl_poly (hw : 0 < w) (p : BitVec w) (bs : List Bool) : ∀ (r : BitVec w), ∃ q,
    regPoly (bs.foldl (bstep p) r) = regPoly r * X ^ bs.length + msgPoly bs * X ^ w + q * gen p := by
  induction bs with
  | nil => intro r; exact ⟨0, by simp [msgPoly]⟩
  | cons b bs ih =>
    intro r
    obtain ⟨q1, h1⟩ := bstep_poly hw p r b
    obtain ⟨q2, h2⟩ := ih (bstep p r b)
    refine ⟨q1 * X ^ bs.length + q2, ?_⟩
    simp only [List.foldl_cons, List.length_cons, msgPoly]
    rw [h2, h1]; ring

/-- the register is the remainder of the division by the generator -/
theorem foldl_mod (hw : 0 < w) (p : BitVec w) (bs : List Bool) (r : BitVec w) :
    regPoly (bs.foldl (bstep p) r) = (regPoly r * X ^ bs.length + msgPoly bs * X ^ w) %ₘ gen p := by
  obtain ⟨q, h⟩ := foldl_poly hw p bs r
  have hd : regPoly (bs.foldl (bstep p) r) %ₘ gen p = regPoly (bs.foldl (bstep p) r) := by
    rw [modByMonic_eq_self_iff (gen_monic p), gen_degree]; exact regPoly_degree _
  rw [← hd, h, add_modByMonic, (modByMonic_eq_zero_iff_dvd (gen_monic p)).2 (Dvd.intro_left q rfl), add_zero]

/-- the register value is determined by its polynomial -/
theorem regPoly_inj {a b : BitVec w} (h : regPoly a = regPoly b) : a = b := by
  have hc : ∀ (r : BitVec w) (j : Nat), j < w → (regPoly r).coeff j = if r.getLsbD (w - 1 - j) then 1 else 0 := by
    intro r j hj
    unfold regPoly
    rw [finsetSum_coeff, Finset.sum_eq_single j]
    · unfold co; split <;> simp
    · intro i _ hne; unfold co; split <;> simp [coeff_X_pow, Ne.symm hne]
    · intro h; exact absurd (Finset.mem_range.2 hj) h
  apply BitVec.eq_of_getLsbD_eq
  intro i hi
  have h1 := hc a (w - 1 - i) (by omega)
  have h2 := hc b (w - 1 - i) (by omega)
  rw [h, h2, show w - 1 - (w - 1 - i) = i by omega] at h1
  cases ha : a.getLsbD i <;> cases hb : b.getLsbD i <;> simp_all

/-- burst detection: two messages that differ only inside a window of at most `w` bits have different
register contents -/
theorem burst {p : BitVec w} (hw : 0 < w) (hp : p.getLsbD (w - 1) = true) (r : BitVec w)
    (pre x y post : List Bool) (hl : x.length = y.length) (hx : x.length ≤ w) (hne : x ≠ y) :
    (pre ++ x ++ post).foldl (bstep p) r ≠ (pre ++ y ++ post).foldl (bstep p) r := by
  intro h
  simp only [List.foldl_append] at h
  have h1 := foldl_inj hw hp post h
  rw [foldl_eq_zsteps p x _ hx, foldl_eq_zsteps p y _ (by omega), hl] at h1
  have h2 := zsteps_inj hw hp _ h1
  have h3 : pack w x = pack w y := by
    have := congrArg (fun v => (List.foldl (bstep p) r pre) ^^^ v) h2
    simpa [← BitVec.xor_assoc] using this
  exact hne (pack_inj hl hx h3)

end Lemmas.Crc
