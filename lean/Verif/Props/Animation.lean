import Verif.Model.Animation
import Verif.Spec.Animation
import Mathlib.Algebra.Order.Ring.Abs
import Mathlib.Tactic.Ring
import Mathlib.Tactic.Linarith
import Mathlib.Tactic.NormNum
/-
Claims C179 to C182 about animations.
-/
set_option autoImplicit false
namespace Props.Animation
open Modm.Animation Spec.Animation

/-! ## C179: ramps -/

/-- The widths of the types are such that values with their fractions fit. -/
private def Fits (c : Config) : Prop := c.v + c.f < c.w ∧ 1 ≤ c.sw ∧ 1 ≤ c.v

private theorem pow2_pos (n : Nat) : (0 : Int) < 2 ^ n := by positivity

private theorem val_bounds (s : Bool) {v : Nat} (hv : 1 ≤ v) (x y : BitVec v) : |val s x - val s y| < 2 ^ v := by
  have h2 : (2 : Int) ^ v = 2 * 2 ^ (v - 1) := by rw [← pow_succ', Nat.sub_add_cancel hv]
  unfold val
  rw [abs_lt]
  cases s
  · simp only [Bool.false_eq_true, if_false]
    have := x.isLt; have := y.isLt
    zify at *
    constructor <;> linarith [Int.natCast_nonneg x.toNat, Int.natCast_nonneg y.toNat]
  · simp only [if_true]
    have a := BitVec.le_toInt x; have b := BitVec.toInt_lt (x := x)
    have a' := BitVec.le_toInt y; have b' := BitVec.toInt_lt (x := y)
    constructor <;> linarith

private theorem wrap_eq (n : Nat) (x : Int) (hn : 1 ≤ n) (h : |x| < 2 ^ (n - 1)) : wrap n x = x := by
  have h2 : (2 : Int) ^ n = 2 * 2 ^ (n - 1) := by rw [← pow_succ', Nat.sub_add_cancel hn]
  rw [abs_lt] at h
  unfold wrap
  apply Int.bmod_eq_of_le
  · push_cast; rw [h2]; omega
  · push_cast; rw [h2]; omega

private theorem ofInt_shift (w f : Nat) (x : Int) : (BitVec.ofInt w x) <<< f = BitVec.ofInt w (x * 2 ^ f) := by
  rw [BitVec.shiftLeft_eq_mul_twoPow, BitVec.ofInt_mul]
  congr 1
  apply BitVec.eq_of_toNat_eq
  rw [BitVec.toNat_twoPow, BitVec.toNat_ofInt]
  have : ((2 : Int) ^ f % ((2 ^ w : Nat) : Int)) = (((2 ^ f % 2 ^ w : Nat)) : Int) := by push_cast; rfl
  rw [this, Int.toNat_natCast]

private theorem get_ofInt (c : Config) (h : c.v + c.f ≤ c.w) (x d : Int) :
    (Ramp.get (⟨BitVec.ofInt c.w x, d⟩ : Ramp c)) = BitVec.ofInt c.v (x / 2 ^ c.f) := by
  unfold Ramp.get
  apply BitVec.eq_of_toNat_eq
  rw [BitVec.toNat_setWidth, BitVec.toNat_ushiftRight, Nat.shiftRight_eq_div_pow, BitVec.toNat_ofInt, BitVec.toNat_ofInt]
  zify
  have p1 : (0 : Int) < 2 ^ c.w := pow2_pos _
  have p2 : (0 : Int) < 2 ^ c.v := pow2_pos _
  rw [Int.toNat_of_nonneg (Int.emod_nonneg _ (p1.ne')), Int.toNat_of_nonneg (Int.emod_nonneg _ (p2.ne'))]
  have e1 : (2 : Int) ^ c.w = 2 ^ c.f * (2 ^ c.v * 2 ^ (c.w - c.f - c.v)) := by
    rw [← pow_add, ← pow_add]; congr 1; omega
  rw [Int.emod_def x, e1]
  generalize x / (2 ^ c.f * (2 ^ c.v * 2 ^ (c.w - c.f - c.v))) = q
  have : x - 2 ^ c.f * (2 ^ c.v * 2 ^ (c.w - c.f - c.v)) * q = x + 2 ^ c.f * (-(2 ^ c.v * 2 ^ (c.w - c.f - c.v) * q)) := by ring
  rw [this, Int.add_mul_ediv_left _ _ (pow2_pos c.f).ne']
  have : x / 2 ^ c.f + -(2 ^ c.v * 2 ^ (c.w - c.f - c.v) * q) = x / 2 ^ c.f + 2 ^ c.v * (-(2 ^ (c.w - c.f - c.v) * q)) := by ring
  rw [this, Int.add_mul_emod_self_left]

private theorem val_ofInt (s : Bool) {v : Nat} (hv : 1 ≤ v) (b e : BitVec v) (y : Int) (h : Between (val s b) y (val s e)) :
    val s (BitVec.ofInt v y) = y := by
  have h2 : (2 : Int) ^ v = 2 * 2 ^ (v - 1) := by rw [← pow_succ', Nat.sub_add_cancel hv]
  unfold val Between at *
  cases s
  · simp only [Bool.false_eq_true, if_false] at *
    have := b.isLt; have := e.isLt
    zify at *
    rw [BitVec.toNat_ofInt, Int.toNat_of_nonneg (Int.emod_nonneg _ (by push_cast; exact (pow2_pos v).ne'))]
    push_cast
    have hb := Int.natCast_nonneg b.toNat
    have he := Int.natCast_nonneg e.toNat
    exact Int.emod_eq_of_lt (by rcases h with h | h <;> linarith) (by rcases h with h | h <;> linarith)
  · simp only [if_true] at *
    have a := BitVec.le_toInt b; have b1 := BitVec.toInt_lt (x := b)
    have a' := BitVec.le_toInt e; have b1' := BitVec.toInt_lt (x := e)
    rw [BitVec.toInt_ofInt]
    apply Int.bmod_eq_of_le
    · push_cast; rw [h2]; rcases h with h | h <;> omega
    · push_cast; rw [h2]; rcases h with h | h <;> omega

private theorem steps_acc (c : Config) (d : Int) : ∀ (k : Nat) (x : Int),
    Ramp.steps k (⟨BitVec.ofInt c.w x, d⟩ : Ramp c) = ⟨BitVec.ofInt c.w (x + k * d), d⟩ := by
  intro k
  induction k with
  | zero => intro x; simp [Ramp.steps]
  | succ k ih =>
    intro x
    rw [Ramp.steps]
    have : Ramp.step (⟨BitVec.ofInt c.w x, d⟩ : Ramp c) = ⟨BitVec.ofInt c.w (x + d), d⟩ := by
      simp only [Ramp.step, BitVec.ofInt_add]
    rw [this, ih]
    congr 2
    push_cast
    ring

private theorem tdiv_facts (D : Int) (s : Int) (hs : 0 < s) :
    (0 ≤ D → 0 ≤ D.tdiv s ∧ D.tdiv s * s ≤ D ∧ D < (D.tdiv s + 1) * s) ∧
    (D ≤ 0 → D.tdiv s ≤ 0 ∧ D ≤ D.tdiv s * s ∧ (D.tdiv s - 1) * s < D) := by
  constructor
  · intro h
    rw [Int.tdiv_eq_ediv_of_nonneg h]
    exact ⟨Int.ediv_nonneg h hs.le, Int.ediv_mul_le _ hs.ne', Int.lt_ediv_add_one_mul_self _ hs⟩
  · intro h
    have e : D.tdiv s = -((-D) / s) := by
      rw [← Int.tdiv_eq_ediv_of_nonneg (by omega : 0 ≤ -D), Int.neg_tdiv, neg_neg]
    rw [e]
    have a := Int.ediv_nonneg (by omega : 0 ≤ -D) hs.le
    have b := Int.ediv_mul_le (-D) hs.ne'
    have c := Int.lt_ediv_add_one_mul_self (-D) hs
    refine ⟨by omega, by linarith, by linarith⟩

/-- The slope of a ramp. -/
private def slope (c : Config) (b e : Int) (s : Nat) : Int := ((e - b) * 2 ^ c.f).tdiv s

private theorem slope_facts (c : Config) (b e : Int) (s : Nat) (hs : 0 < s) (hl : (s : Int) ≤ 2 ^ c.f * |e - b|) :
    (b < e → 1 ≤ slope c b e s ∧ slope c b e s * s ≤ (e - b) * 2 ^ c.f ∧ (e - b) * 2 ^ c.f < (slope c b e s + 1) * s) ∧
    (e < b → slope c b e s ≤ -1 ∧ (e - b) * 2 ^ c.f ≤ slope c b e s * s ∧ (slope c b e s - 1) * s < (e - b) * 2 ^ c.f) := by
  have hs' : (0 : Int) < s := by exact_mod_cast hs
  obtain ⟨t1, t2⟩ := tdiv_facts ((e - b) * 2 ^ c.f) s hs'
  have hp := pow2_pos c.f
  constructor
  · intro h
    have hD : 0 ≤ (e - b) * 2 ^ c.f := mul_nonneg (by omega) hp.le
    obtain ⟨a, b', c'⟩ := t1 hD
    refine ⟨?_, b', c'⟩
    rw [abs_of_pos (by omega), mul_comm] at hl
    by_contra hn
    have : ((e - b) * 2 ^ c.f).tdiv s = 0 := by unfold slope at hn; omega
    rw [this] at c'
    omega
  · intro h
    have hD : (e - b) * 2 ^ c.f ≤ 0 := mul_nonpos_of_nonpos_of_nonneg (by omega) hp.le
    obtain ⟨a, b', c'⟩ := t2 hD
    refine ⟨?_, b', c'⟩
    rw [abs_of_neg (by omega)] at hl
    by_contra hn
    have : ((e - b) * 2 ^ c.f).tdiv s = 0 := by unfold slope at hn; omega
    rw [this] at c'
    nlinarith

private theorem ramp_some (c : Config) (hc : Fits c) (b e : BitVec c.v) (s : Nat) (h0 : val c.signed b ≠ val c.signed e)
    (hs : 0 < s) (hs' : s < 2 ^ (c.sw - 1)) (hl : (s : Int) ≤ 2 ^ c.f * |val c.signed e - val c.signed b|) :
    Ramp.initialize c b e s = some ⟨BitVec.ofInt c.w (val c.signed b * 2 ^ c.f + (slope c (val c.signed b) (val c.signed e) s).tdiv 2),
      slope c (val c.signed b) (val c.signed e) s⟩ := by
  obtain ⟨h1, h2, h3⟩ := hc
  have hd : |(val c.signed e - val c.signed b) * 2 ^ c.f| < 2 ^ (c.w - 1) := by
    rw [abs_mul, abs_of_pos (pow2_pos c.f)]
    calc |val c.signed e - val c.signed b| * 2 ^ c.f < 2 ^ c.v * 2 ^ c.f := by
          apply mul_lt_mul_of_pos_right (val_bounds c.signed h3 e b) (pow2_pos c.f)
      _ = 2 ^ (c.v + c.f) := by rw [pow_add]
      _ ≤ 2 ^ (c.w - 1) := pow_le_pow_right₀ (by norm_num) (by omega)
  have hw : wrap c.w ((val c.signed e - val c.signed b) * 2 ^ c.f) = (val c.signed e - val c.signed b) * 2 ^ c.f :=
    wrap_eq _ _ (by omega) hd
  have hsw : wrap c.sw (s : Int) = s := by
    apply wrap_eq _ _ h2
    rw [abs_of_nonneg (by positivity)]
    exact_mod_cast hs'
  have hne : (val c.signed e - val c.signed b) * 2 ^ c.f ≠ 0 := mul_ne_zero (sub_ne_zero.2 h0.symm) (pow2_pos c.f).ne'
  have hslope : ((val c.signed e - val c.signed b) * 2 ^ c.f).tdiv s ≠ 0 := by
    obtain ⟨t1, t2⟩ := slope_facts c _ _ s hs hl
    unfold slope at t1 t2
    rcases lt_or_gt_of_ne h0 with h | h
    · have := (t1 h).1; omega
    · have := (t2 h).1; omega
  unfold Ramp.initialize
  simp only [hw, hsw]
  rw [if_pos hne, if_neg (by exact_mod_cast hs.ne'), if_neg hslope, ofInt_shift, ← BitVec.ofInt_add]
  rfl

/-- The height of a ramp after `k` steps, with its fraction. -/
private def height (c : Config) (b e : Int) (s k : Nat) : Int := b * 2 ^ c.f + (slope c b e s).tdiv 2 + k * slope c b e s

private theorem height_bounds (c : Config) (b e : Int) (s k : Nat) (hs : 0 < s) (hk : k < s) (hl : (s : Int) ≤ 2 ^ c.f * |e - b|) :
    (b < e → b * 2 ^ c.f ≤ height c b e s k ∧ height c b e s k ≤ e * 2 ^ c.f) ∧
    (e < b → e * 2 ^ c.f ≤ height c b e s k ∧ height c b e s k ≤ b * 2 ^ c.f) := by
  obtain ⟨t1, t2⟩ := slope_facts c b e s hs hl
  have hk' : (k : Int) + 1 ≤ s := by exact_mod_cast hk
  have hk0 : (0 : Int) ≤ k := by positivity
  unfold height
  generalize slope c b e s = d at *
  obtain ⟨u1, u2⟩ := tdiv_facts d 2 (by norm_num)
  constructor
  · intro h
    obtain ⟨a1, a2, a3⟩ := t1 h
    obtain ⟨b1, b2, b3⟩ := u1 (by omega)
    constructor
    · nlinarith
    · nlinarith
  · intro h
    obtain ⟨a1, a2, a3⟩ := t2 h
    obtain ⟨b1, b2, b3⟩ := u2 (by omega)
    constructor
    · nlinarith
    · nlinarith

private theorem height_between (c : Config) (b e : Int) (s k : Nat) (hs : 0 < s) (hk : k < s) (hl : (s : Int) ≤ 2 ^ c.f * |e - b|) (h0 : b ≠ e) :
    Between b (height c b e s k / 2 ^ c.f) e := by
  obtain ⟨t1, t2⟩ := height_bounds c b e s k hs hk hl
  have hp := pow2_pos c.f
  rcases lt_or_gt_of_ne h0 with h | h
  · obtain ⟨a1, a2⟩ := t1 h
    left
    exact ⟨(Int.le_ediv_iff_mul_le hp).2 a1, (Int.ediv_le_ediv hp a2).trans (Int.mul_ediv_cancel e hp.ne').le⟩
  · obtain ⟨a1, a2⟩ := t2 h
    right
    exact ⟨(Int.le_ediv_iff_mul_le hp).2 a1, (Int.ediv_le_ediv hp a2).trans (Int.mul_ediv_cancel b hp.ne').le⟩

private theorem ramp_value (c : Config) (hc : Fits c) (b e : BitVec c.v) (s : Nat) (h0 : val c.signed b ≠ val c.signed e)
    (hs : 0 < s) (hs' : s < 2 ^ (c.sw - 1)) (hl : (s : Int) ≤ 2 ^ c.f * |val c.signed e - val c.signed b|) :
    ∃ r, Ramp.initialize c b e s = some r ∧ ∀ k < s, val c.signed (r.steps k).get = height c (val c.signed b) (val c.signed e) s k / 2 ^ c.f := by
  refine ⟨_, ramp_some c hc b e s h0 hs hs' hl, ?_⟩
  intro k hk
  rw [steps_acc, get_ofInt c (by have := hc.1; omega)]
  exact val_ofInt c.signed hc.2.2 b e _ (height_between c _ _ s k hs hk hl h0)

/-- The types of values modelled. -/
def Supported (c : Config) : Prop := ∃ s, c = avr8 s ∨ c = arm8 s ∨ c = hosted8 s ∨ c = avr16 s ∨ c = arm16 s ∨ c = hosted16 s ∨ c = arm32 s ∨ c = hosted32 s

private theorem fits (c : Config) (h : Supported c) : Fits c ∧ 8 ≤ c.fast8 := by
  obtain ⟨s, h | h | h | h | h | h | h | h⟩ := h <;> subst h <;> cases s <;> exact ⟨⟨by decide, by decide, by decide⟩, by decide⟩

/-- **C179, for ramps that are not too flat.**  For at most `2^f` steps for each unit (128 for 8 bits, 32768 for 16, 65536 for 32), all values of the ramp lie on the way from `begin` to `end`, they never go back,
and are at most `1 + (k + |slope|) / 2^f` away from the line. -/
theorem C179_ramp_partial (c : Config) (hc : Supported c) (b e : BitVec c.v) (s : Nat) (hs : 0 < s) (hs' : s < 2 ^ (c.sw - 1))
    (hl : (s : Int) ≤ 2 ^ c.f * |val c.signed e - val c.signed b|) :
    ∃ r, Ramp.initialize c b e s = some r ∧
      (∀ k < s, Between (val c.signed b) (val c.signed (r.steps k).get) (val c.signed e)) ∧
      (∀ k j, k ≤ j → j < s → Between (val c.signed (r.steps k).get) (val c.signed (r.steps j).get) (val c.signed e)) ∧
      (∀ k < s, |s * (val c.signed (r.steps k).get - val c.signed b) - k * (val c.signed e - val c.signed b)| * 2 ^ c.f ≤
        s * (2 ^ c.f + k) + |val c.signed e - val c.signed b| * 2 ^ c.f) := by
  obtain ⟨hf, -⟩ := fits c hc
  have h0 : val c.signed b ≠ val c.signed e := by
    intro h
    rw [h, sub_self, abs_zero, mul_zero] at hl
    omega
  obtain ⟨r, hr, hv⟩ := ramp_value c hf b e s h0 hs hs' hl
  refine ⟨r, hr, ?_, ?_, ?_⟩
  · intro k hk
    rw [hv k hk]
    exact height_between c _ _ s k hs hk hl h0
  · intro k j hkj hj
    rw [hv k (by omega), hv j hj]
    have hb := height_between c _ _ s j hs hj hl h0
    obtain ⟨t1, t2⟩ := slope_facts c _ _ s hs hl
    have hkj' : (k : Int) ≤ j := by exact_mod_cast hkj
    have hp := pow2_pos c.f
    rcases lt_or_gt_of_ne h0 with h | h
    · have : height c (val c.signed b) (val c.signed e) s k ≤ height c (val c.signed b) (val c.signed e) s j := by
        unfold height
        have := (t1 h).1
        nlinarith
      left
      refine ⟨Int.ediv_le_ediv hp this, ?_⟩
      rcases hb with hb | hb
      · exact hb.2
      · omega
    · have : height c (val c.signed b) (val c.signed e) s j ≤ height c (val c.signed b) (val c.signed e) s k := by
        unfold height
        have := (t2 h).1
        nlinarith
      right
      refine ⟨?_, Int.ediv_le_ediv hp this⟩
      rcases hb with hb | hb
      · omega
      · exact hb.1
  · intro k hk
    rw [hv k hk]
    obtain ⟨t1, t2⟩ := slope_facts c _ _ s hs hl
    have hp := pow2_pos c.f
    have hs2 : (0 : Int) < s := by exact_mod_cast hs
    have hk0 : (0 : Int) ≤ k := by positivity
    generalize val c.signed b = B at *
    generalize val c.signed e = E at *
    have e1 := Int.emod_add_mul_ediv (height c B E s k) (2 ^ c.f)
    have e2 := Int.emod_nonneg (height c B E s k) hp.ne'
    have e3 := Int.emod_lt_of_pos (height c B E s k) hp
    generalize height c B E s k / 2 ^ c.f = y at *
    generalize height c B E s k % 2 ^ c.f = ρ at *
    unfold height at e1
    generalize slope c B E s = d at *
    generalize (2 : Int) ^ c.f = p at *
    obtain ⟨u1, u2⟩ := tdiv_facts d 2 (by norm_num)
    generalize d.tdiv 2 = h2 at *
    have key : ((s : Int) * (y - B) - k * (E - B)) * p = s * h2 - s * ρ + k * (d * s - (E - B) * p) := by
      have : p * y = B * p + h2 + k * d - ρ := by linarith
      have : s * (p * y) = s * (B * p + h2 + k * d - ρ) := by rw [this]
      linarith
    rw [← abs_of_pos hp, ← abs_mul, abs_of_pos hp, key]
    have hρ1 : (s : Int) * ρ ≤ s * p := by nlinarith
    have hρ0 : 0 ≤ (s : Int) * ρ := by positivity
    rcases lt_or_gt_of_ne h0 with h | h
    · obtain ⟨a1, a2, a3⟩ := t1 h
      obtain ⟨b1, b2, b3⟩ := u1 (by omega)
      rw [abs_of_pos (by omega : 0 < E - B), abs_le]
      have k1 : -(k * s : Int) ≤ k * (d * s - (E - B) * p) := by nlinarith
      have k2 : k * (d * s - (E - B) * p) ≤ 0 := by nlinarith
      have k3 : 0 ≤ (s : Int) * h2 := by positivity
      have k4 : (s : Int) * h2 ≤ (E - B) * p := by nlinarith
      constructor <;> nlinarith
    · obtain ⟨a1, a2, a3⟩ := t2 h
      obtain ⟨b1, b2, b3⟩ := u2 (by omega)
      rw [abs_of_neg (by omega : E - B < 0), abs_le]
      have k1 : k * (d * s - (E - B) * p) ≤ (k * s : Int) := by nlinarith
      have k2 : 0 ≤ k * (d * s - (E - B) * p) := mul_nonneg hk0 (by omega)
      have k3 : (s : Int) * h2 ≤ 0 := mul_nonpos_of_nonneg_of_nonpos hs2.le b1
      have k4 : (E - B) * p ≤ (s : Int) * h2 := by nlinarith
      constructor <;> nlinarith

/-- **C179, for the same value.**  With a promoted type that is wide enough a ramp from a value to itself stays there. -/
theorem C179_hold_partial (c : Config) (hc : Supported c) (h16 : c.v + c.f ≤ c.pw) (e : BitVec c.v) (s : Nat) :
    ∃ r, Ramp.initialize c e e s = some r ∧ ∀ k, (r.steps k).get = e := by
  obtain ⟨⟨hf1, hf2, hf3⟩, -⟩ := fits c hc
  have hz : wrap c.w ((val c.signed e - val c.signed e) * 2 ^ c.f) = 0 := by
    rw [sub_self, zero_mul]; exact wrap_eq _ _ (by omega) (by simp)
  have hv : val c.signed (BitVec.ofInt c.pw (val c.signed e) <<< c.f) = val c.signed e * 2 ^ c.f := by
    rw [ofInt_shift]
    have hp := pow2_pos c.f
    have hpow : (2 : Int) ^ c.v * 2 ^ c.f ≤ 2 ^ c.pw := by rw [← pow_add]; exact pow_le_pow_right₀ (by norm_num) h16
    unfold val
    cases hsg : c.signed
    · simp only [Bool.false_eq_true, if_false]
      rw [BitVec.toNat_ofInt, Int.toNat_of_nonneg (Int.emod_nonneg _ (by push_cast; exact (pow2_pos _).ne'))]
      have h1 : (e.toNat : Int) < 2 ^ c.v := by exact_mod_cast e.isLt
      apply Int.emod_eq_of_lt (by positivity)
      push_cast
      nlinarith
    · simp only [if_true]
      have a := BitVec.le_toInt e; have b := BitVec.toInt_lt (x := e)
      have h2 : (2 : Int) ^ c.v = 2 * 2 ^ (c.v - 1) := by rw [← pow_succ', Nat.sub_add_cancel hf3]
      rw [BitVec.toInt_ofInt]
      apply Int.bmod_eq_of_le_mul_two
      · push_cast; nlinarith
      · push_cast; nlinarith
  refine ⟨⟨BitVec.ofInt c.w (val c.signed e * 2 ^ c.f), 0⟩, ?_, ?_⟩
  · unfold Ramp.initialize
    simp only [hz, hv]
    rfl
  · intro k
    rw [steps_acc, get_ofInt c (by omega), mul_zero, add_zero, Int.mul_ediv_cancel _ (pow2_pos c.f).ne']
    unfold val
    cases c.signed
    · simp
    · simp

example : Supported (arm8 false) ∧ (arm8 false).v + (arm8 false).f ≤ (arm8 false).pw ∧ 500 < 2 ^ ((arm8 false).sw - 1) ∧
    ((500 : Nat) : Int) ≤ 2 ^ (arm8 false).f * |val false (255#8) - val false (0#8)| := by
  refine ⟨⟨false, by simp⟩, by decide, by decide, by decide⟩

/-- The values of a ramp after a number of steps. -/
private def after (c : Config) (b e : BitVec c.v) (s : Nat) (ks : List Nat) : Option (List (BitVec c.v)) :=
  (Ramp.initialize c b e s).map fun r => ks.map fun k => (r.steps k).get

/-- **C179, refuted** for flat ramps: a fade from 1 to 0 in a second goes to 0, then to 255 and stays there for most of the second; one from 0 to 1 goes up to 7. -/
theorem C179_flat_counterexample :
    after (arm8 false) 1 0 1000 [128, 129, 256, 257, 999] = some [0, 255, 255, 254, 249] ∧
    after (arm8 false) 0 1 1000 [128, 256, 512, 999] = some [1, 2, 4, 7] := by
  decide +kernel

/-- **C179, refuted** for the line: a fade over the whole range in 16321 ms reaches half of it and jumps. -/
theorem C179_line_counterexample : after (arm8 false) 0 255 16321 [16320] = some [127] := by
  have e : Ramp.initialize (arm8 false) (0#8) (255#8) 16321 = some ⟨BitVec.ofInt (arm8 false).w 0, 1⟩ := by decide +kernel
  unfold after
  rw [show (0 : BitVec (arm8 false).v) = 0#8 from rfl, show (255 : BitVec (arm8 false).v) = 255#8 from rfl, e]
  simp only [Option.map_some, List.map_cons, List.map_nil, steps_acc]
  decide +kernel

/-- **C179, refuted** for ramps from a value to itself: with 32 bits only the lower 16 remain, with 16 bits on AVR only the lowest. -/
theorem C179_hold_counterexample :
    after (arm32 false) 100000 100000 375 [1] = some [34464] ∧ after (avr16 false) 65535 65535 375 [1] = some [1] := by
  decide +kernel

/-- **C179, refuted** for many steps on AVR: with 40000 steps the ramp goes the wrong way, as `steps` becomes negative. -/
theorem C179_avr_counterexample : after (avr8 false) 0 255 40000 [128] = some [255] ∧ after (arm8 false) 0 255 40000 [128] = some [1] := by
  decide +kernel

/-! ## C180: animations -/

/-- Updates at the given times. -/
def run {c : Config} (a : Animation c) (times : List Nat) : Animation c := times.foldl (fun a t => (a.update t).1) a

private theorem elapsed (t u : Nat) (h : t ≤ u) (h' : u < t + 256) (n : Nat) (hn : 8 ≤ n) :
    ((BitVec.ofNat 16 u - BitVec.ofNat 16 t).toNat % 2 ^ n) = u - t := by
  have h8 : 256 ≤ 2 ^ n := by
    calc 256 = 2 ^ 8 := by norm_num
      _ ≤ 2 ^ n := Nat.pow_le_pow_right (by norm_num) hn
  rw [BitVec.toNat_sub, BitVec.toNat_ofNat, BitVec.toNat_ofNat]
  have : (2 ^ 16 - t % 2 ^ 16 + u % 2 ^ 16) % 2 ^ 16 = u - t := by omega
  rw [this, Nat.mod_eq_of_lt (by omega)]

private theorem steps_steps {c : Config} (n : Nat) : ∀ (m : Nat) (r : Ramp c), (r.steps m).steps n = r.steps (m + n) := by
  intro m
  induction m with
  | zero => intro r; simp [Ramp.steps]
  | succ m ih => intro r; rw [Ramp.steps, ih, Nat.succ_add, Ramp.steps]

/-- Where an animation started at `t0` is at time `t`. -/
private def At {c : Config} (t0 len : Nat) (r : Ramp c) (v0 v : BitVec c.v) (t : Nat) (a : Animation c) : Prop :=
  (t < t0 + len ∧ t0 ≤ t ∧ a.animationTime = t0 + len - t ∧ a.previous = BitVec.ofNat 16 t ∧ a.endValue = v ∧ a.interpolation = r.steps (t - t0) ∧
    a.currentValue = if t = t0 then v0 else (r.steps (t - t0)).get) ∨
  (t0 + len ≤ t ∧ a.animationTime = 0 ∧ a.currentValue = v)

private theorem at_update {c : Config} (h8 : 8 ≤ c.fast8) (t0 len : Nat) (r : Ramp c) (v0 v : BitVec c.v) (t u : Nat) (a : Animation c)
    (h : At t0 len r v0 v t a) (htu : t ≤ u) (hu : u < t + 256) : At t0 len r v0 v u (a.update u).1 := by
  rcases h with ⟨h1, h0, h2, h3, h4, h5, h6⟩ | ⟨h1, h2, h3⟩
  · unfold Animation.update
    rw [if_pos (by omega)]
    simp only [h3, elapsed t u htu hu c.fast8 h8]
    by_cases hd : u - t = 0
    · have : u = t := by omega
      subst this
      rw [if_neg (by omega)]
      exact .inl ⟨h1, h0, h2, h3, h4, h5, h6⟩
    · rw [if_pos hd]
      by_cases hend : a.animationTime ≤ u - t
      · rw [if_pos hend]
        exact .inr ⟨by omega, rfl, h4⟩
      · rw [if_neg hend]
        have e : (Ramp.steps (u - t) a.interpolation) = r.steps (u - t0) := by
          rw [h5, steps_steps]; congr 1; omega
        left
        simp only [e]
        split
        · exact ⟨by omega, by omega, by simp only; omega, rfl, h4, rfl, by rw [if_neg (by omega)]⟩
        · rename_i hne
          exact ⟨by omega, by omega, by simp only; omega, rfl, h4, rfl, by rw [if_neg (by omega)]; simpa using hne⟩
  · unfold Animation.update
    rw [if_neg (by omega)]
    exact .inr ⟨by omega, h2, h3⟩

private theorem at_run {c : Config} (h8 : 8 ≤ c.fast8) (t0 len : Nat) (r : Ramp c) (v0 v : BitVec c.v) (times : List Nat) :
    ∀ (t : Nat) (a : Animation c), At t0 len r v0 v t a → Often t times → At t0 len r v0 v (last t times) (run a times) := by
  induction times with
  | nil => intro t a h _; exact h
  | cons u us ih =>
    intro t a h ho
    cases ho with
    | cons _ _ _ h1 h2 h3 => exact ih u _ (at_update h8 t0 len r v0 v t u a h h1 h2) h3

/-- **C180.** An animation of `len` ms ends after `len` ms with the wanted value, and not before, and in between shows the values of the ramp for the
milliseconds that have passed, however the calls of `update` are spread, as long as there are never 256 ms between them.  `len` must be less than 65536 for 8 bits. -/
theorem C180_animation (c : Config) (hc : Supported c) (a b : Animation c) (v : BitVec c.v) (t0 len : Nat) (times : List Nat)
    (h0 : 0 < len) (h1 : len < 2 ^ c.tb) (hb : a.animateTo t0 v len = some b) (ho : Often t0 times) :
    (last t0 times < t0 + len → (run b times).isAnimating = true ∧ ∃ r, Ramp.initialize c a.currentValue v len = some r ∧
      (run b times).currentValue = if last t0 times = t0 then a.currentValue else (r.steps (last t0 times - t0)).get) ∧
    (t0 + len ≤ last t0 times → (run b times).isAnimating = false ∧ (run b times).currentValue = v) := by
  obtain ⟨-, h8⟩ := fits c hc
  unfold Animation.animateTo at hb
  rw [if_neg (by omega)] at hb
  simp only [Nat.mod_eq_of_lt h1] at hb
  cases hr : Ramp.initialize c a.currentValue v len with
  | none => rw [hr] at hb; simp at hb
  | some r =>
    rw [hr] at hb
    simp only [bind, Option.bind, Option.some.injEq] at hb
    have hat : At t0 len r a.currentValue v t0 b := by
      subst hb
      exact .inl ⟨by omega, le_refl _, by simp, rfl, rfl, by rw [Nat.sub_self]; rfl, by rw [if_pos rfl]⟩
    have := at_run h8 t0 len r a.currentValue v times t0 b hat ho
    rcases this with ⟨k1, k0, k2, k3, k4, k5, k6⟩ | ⟨k1, k2, k3⟩
    · refine ⟨fun _ => ⟨by simp only [Animation.isAnimating, k2, decide_eq_true_eq]; omega, r, rfl, k6⟩, fun h => by omega⟩
    · exact ⟨fun h => by omega, fun _ => ⟨by simp [Animation.isAnimating, k2], k3⟩⟩

/-- **C180.** The handler is called with every new value: `update` returns `false` if it changes nothing, and if it returns `true` the last call of the handler was with the value. -/
theorem C180_handler (c : Config) (a : Animation c) (now : Nat) :
    ((a.update now).2 = false → (a.update now).1.currentValue = a.currentValue ∧ (a.update now).1.calls = a.calls) ∧
    ((a.update now).2 = true → (a.update now).1.calls = (a.update now).1.currentValue :: a.calls) := by
  unfold Animation.update
  simp only
  split
  · split
    · split
      · exact ⟨fun h => by simp at h, fun _ => rfl⟩
      · split
        · exact ⟨fun h => by simp at h, fun _ => rfl⟩
        · exact ⟨fun _ => ⟨rfl, rfl⟩, fun h => by simp at h⟩
    · exact ⟨fun _ => ⟨rfl, rfl⟩, fun h => by simp at h⟩
  · exact ⟨fun _ => ⟨rfl, rfl⟩, fun h => by simp at h⟩

private def fresh (c : Config) (x : BitVec c.v) : Animation c := ⟨x, 0, 0, 0, ⟨0, 0⟩, []⟩

/-- From 10 to 200 in half a second, with updates after 0, 100, 300, 499 and 700 ms. -/
example : ((fresh (arm8 false) 10).animateTo 70000 200 500).map (fun b =>
      [[70000], [70000, 70100], [70000, 70100, 70300], [70000, 70100, 70300, 70499], [70000, 70100, 70300, 70499, 70700]].map fun t => ((run b t).currentValue, (run b t).isAnimating)) =
      some [(10, true), (47, true), (122, true), (197, true), (200, false)] ∧ Often 70000 [70000, 70100, 70300, 70499, 70700] := by
  refine ⟨by decide +kernel, ?_⟩
  repeat (first | exact .nil _ | (refine .cons _ _ _ (by decide) (by decide) ?_))

/-- **C180, refuted** for long times: with 8 bits a time of 65536 ms is a division by zero, and one of 65537 ms ends after one. -/
theorem C180_long_counterexample :
    ((fresh (arm8 false) 10).animateTo 0 200 65536).isNone = true ∧
    ((fresh (arm8 false) 10).animateTo 0 200 65537).map (fun b => ((run b [1]).currentValue, (run b [1]).isAnimating)) = some (200, false) := by
  decide +kernel

/-- **C180, refuted** for rare updates where `uint_fast8_t` has 8 bits: 256 ms without an update are lost. -/
theorem C180_rare_counterexample :
    ((fresh (avr8 false) 10).animateTo 0 200 100).map (fun b => ((run b [256]).currentValue, (run b [256]).isAnimating)) = some (10, true) ∧
    ((fresh (arm8 false) 10).animateTo 0 200 100).map (fun b => ((run b [256]).currentValue, (run b [256]).isAnimating)) = some (200, false) := by
  decide +kernel

/-- **C180, refuted** for the result of `update`: at the end of an animation it is `true` even if the value has not changed. -/
theorem C180_result_counterexample :
    ((fresh (arm8 false) 10).animateTo 0 10 100).map (fun b => ((b.update 100).1.currentValue, (b.update 100).2)) = some (10, true) := by
  decide +kernel

/-! ## C181: key frames -/

/-- Updates of key frames at the given times. -/
def play {c : Config} (k : KeyFrames c) : List Nat → Option (KeyFrames c)
  | [] => some k
  | t :: ts => do
    let k ← k.update t
    play k ts

/-- An update starts the next frame. -/
def Ready {c : Config} (k : KeyFrames c) : Prop := k.isAnimating = true ∧ ∀ a ∈ k.animators.head?, a.isAnimating = false

/-- What an update does with the order of the frames. -/
private theorem update_order {c : Config} (now : Nat) (k k' : KeyFrames c) (h : k.update now = some k') :
    (Ready k ∧ ∃ as, ∃ j : KeyFrames c, j = { k with animators := as, log := (k.currentFrame - 1) :: k.log }.next.1 ∧
      k'.currentFrame = j.currentFrame ∧ k'.repeat_ = j.repeat_ ∧ k'.reversed = j.reversed ∧ k'.cycle = j.cycle ∧ k'.frames = j.frames ∧ k'.log = j.log) ∨
    (¬Ready k ∧ k'.currentFrame = k.currentFrame ∧ k'.repeat_ = k.repeat_ ∧ k'.reversed = k.reversed ∧ k'.cycle = k.cycle ∧ k'.frames = k.frames ∧ k'.log = k.log) := by
  unfold KeyFrames.update at h
  split at h
  · rename_i hc
    cases hh : k.animators.head? with
    | none => rw [hh] at h; simp at h
    | some a =>
      rw [hh] at h
      simp only [bind, Option.bind] at h
      split at h
      · rename_i ha
        left
        refine ⟨⟨by simpa [KeyFrames.isAnimating] using hc, by rw [hh]; simpa using ha⟩, ?_⟩
        cases hf : k.frames[k.currentFrame - 1]? with
        | none => rw [hf] at h; simp at h
        | some fr =>
          rw [hf] at h
          simp only at h
          cases hs : startAll now fr.length k.animators fr.value with
          | none => rw [hs] at h; simp at h
          | some as =>
            rw [hs] at h
            simp only at h
            refine ⟨as, _, rfl, ?_⟩
            split at h
            · simp only [Option.some.injEq] at h; subst h; exact ⟨rfl, rfl, rfl, rfl, rfl, rfl⟩
            · simp only [Option.some.injEq] at h; subst h; exact ⟨rfl, rfl, rfl, rfl, rfl, rfl⟩
      · rename_i ha
        right
        simp only [Option.some.injEq] at h
        subst h
        refine ⟨?_, rfl, rfl, rfl, rfl, rfl, rfl⟩
        intro hr
        have := hr.2 a (by rw [hh]; rfl)
        simp [this] at ha
  · rename_i hc
    right
    simp only [Option.some.injEq] at h
    subst h
    refine ⟨?_, rfl, rfl, rfl, rfl, rfl, rfl⟩
    intro hr
    exact hc (by simpa [KeyFrames.isAnimating] using hr.1)

/-- After `m` frames of a cycle. -/
private def Cycling {c : Config} (n r : Nat) (k : KeyFrames c) : Prop :=
  k.cycle = true ∧ k.frames.length = n ∧ ∃ m, k.log = ((List.range m).map (frameAt true n)).reverse ∧
    ((∃ q p, m = n * q + p ∧ p < n ∧ k.currentFrame = p + 1 ∧ ((r = 0 ∧ k.repeat_ = 0) ∨ (0 < k.repeat_ ∧ k.repeat_ + q = r))) ∨
     (0 < r ∧ m = n * r ∧ k.currentFrame = 0))

private theorem log_snoc (g : Nat → Nat) (m : Nat) : g m :: ((List.range m).map g).reverse = ((List.range (m + 1)).map g).reverse := by
  rw [List.range_succ]; simp

private theorem cycling_update {c : Config} (n r : Nat) (now : Nat) (k k' : KeyFrames c) (h : k.update now = some k') (hk : Cycling n r k) :
    Cycling n r k' := by
  obtain ⟨h1, h2, m, h3, h4⟩ := hk
  rcases update_order now k k' h with ⟨hr, as, j, hj, e1, e2, e3, e4, e5, e6⟩ | ⟨-, e1, e2, e3, e4, e5, e6⟩
  · have hpos : 0 < k.currentFrame := by simpa [KeyFrames.isAnimating] using hr.1
    rcases h4 with ⟨q, p, hm, hp, hcf, hrep⟩ | ⟨_, _, hcf⟩
    · have hfr : k.currentFrame - 1 = frameAt true n m := by
        rw [hcf, hm]; simp [frameAt, Nat.mod_eq_of_lt hp]
      unfold KeyFrames.next at hj
      simp only [h1, if_true] at hj
      by_cases hlast : k.currentFrame ≥ k.frames.length
      · rw [if_pos hlast] at hj
        have hp1 : p + 1 = n := by omega
        have hmn : m + 1 = n * (q + 1) := by rw [Nat.mul_succ]; omega
        unfold KeyFrames.checkRepeat at hj
        simp only at hj
        by_cases hr1 : k.repeat_ = 1
        · rw [if_pos hr1] at hj
          simp only [Bool.false_eq_true, if_false] at hj
          subst hj
          refine ⟨e4.trans (by first | exact h1 | rfl), by rw [e5]; exact h2, m + 1, ?_, .inr ⟨by omega, ?_, by rw [e1]⟩⟩
          · simp [e6, hfr, h3, List.range_succ]
          · have : q + 1 = r := by omega
            rw [hmn, this]
        · rw [if_neg hr1] at hj
          by_cases hr0 : k.repeat_ > 0
          · rw [if_pos hr0] at hj
            simp only [if_true] at hj
            subst hj
            refine ⟨e4.trans (by first | exact h1 | rfl), by rw [e5]; exact h2, m + 1, ?_, .inl ⟨q + 1, 0, by omega, by omega, by rw [e1], .inr ⟨?_, ?_⟩⟩⟩
            · simp [e6, hfr, h3, List.range_succ]
            · rw [e2]; simp only; omega
            · rw [e2]; simp only; omega
          · rw [if_neg hr0] at hj
            simp only [if_true] at hj
            subst hj
            refine ⟨e4.trans (by first | exact h1 | rfl), by rw [e5]; exact h2, m + 1, ?_, .inl ⟨q + 1, 0, by omega, by omega, by rw [e1], .inl ⟨?_, ?_⟩⟩⟩
            · simp [e6, hfr, h3, List.range_succ]
            · omega
            · rw [e2]; simp only; omega
      · rw [if_neg hlast] at hj
        subst hj
        refine ⟨e4.trans (by first | exact h1 | rfl), by rw [e5]; exact h2, m + 1, ?_, .inl ⟨q, p + 1, by omega, by omega, by rw [e1]; simp only; omega, ?_⟩⟩
        · simp [e6, hfr, h3, List.range_succ]
        · rw [e2]; exact hrep
    · omega
  · exact ⟨e4.trans h1, by rw [e5]; exact h2, m, by rw [e6]; exact h3, by rw [e1, e2]; exact h4⟩

/-- After `m` frames, up and down.  `m = 0`, or `m = 2 (n - 1) q + p` with `1 ≤ p ≤ 2 (n - 1)`. -/
private def Swinging {c : Config} (n r : Nat) (k : KeyFrames c) : Prop :=
  k.cycle = false ∧ k.frames.length = n ∧ ∃ m, k.log = ((List.range m).map (frameAt false n)).reverse ∧
    ((m = 0 ∧ k.currentFrame = 1 ∧ k.reversed = false ∧ k.repeat_ = r) ∨
     (∃ q p, m = 2 * (n - 1) * q + p ∧ 1 ≤ p ∧ p ≤ 2 * (n - 1) ∧ ((r = 0 ∧ k.repeat_ = 0) ∨ (0 < k.repeat_ ∧ k.repeat_ + q = r)) ∧
        ((p < n ∧ k.reversed = false ∧ k.currentFrame = p + 1) ∨ (n ≤ p ∧ k.reversed = true ∧ k.currentFrame = 2 * (n - 1) - p + 1))) ∨
     (0 < r ∧ m = 1 + 2 * (n - 1) * r ∧ k.currentFrame = 0))

private theorem frameAt_swing (n q p : Nat) (hn : 2 ≤ n) (h1 : 1 ≤ p) (h2 : p ≤ 2 * (n - 1)) :
    frameAt false n (2 * (n - 1) * q + p) = if p < n then p else 2 * (n - 1) - p := by
  unfold frameAt
  simp only [Bool.false_eq_true, if_false]
  by_cases hp : p = 2 * (n - 1)
  · subst hp
    rw [Nat.mul_add_mod, Nat.mod_self, if_pos (by omega), if_neg (by omega)]
    omega
  · rw [Nat.mul_add_mod, Nat.mod_eq_of_lt (by omega)]

private theorem swinging_update {c : Config} (n r : Nat) (hn : 2 ≤ n) (now : Nat) (k k' : KeyFrames c) (h : k.update now = some k') (hk : Swinging n r k) :
    Swinging n r k' := by
  obtain ⟨h1, h2, m, h3, h4⟩ := hk
  rcases update_order now k k' h with ⟨hr, as, j, hj, e1, e2, e3, e4, e5, e6⟩ | ⟨-, e1, e2, e3, e4, e5, e6⟩
  · have hpos : 0 < k.currentFrame := by simpa [KeyFrames.isAnimating] using hr.1
    unfold KeyFrames.next at hj
    simp only [h1, Bool.false_eq_true, if_false] at hj
    rcases h4 with ⟨hm, hcf, hrev, hrep⟩ | ⟨q, p, hm, hp1, hp2, hrep, hd⟩ | ⟨_, _, hcf⟩
    · subst hm
      have hfr : k.currentFrame - 1 = frameAt false n 0 := by rw [hcf]; simp [frameAt]; omega
      simp only [hrev, Bool.false_eq_true, not_false_eq_true, if_true] at hj
      rw [if_neg (by omega)] at hj
      subst hj
      refine ⟨e4.trans (by first | exact h1 | rfl), by rw [e5]; exact h2, 1, ?_, .inr (.inl ⟨0, 1, by omega, by omega, by omega, ?_, .inl ⟨by omega, by rw [e3], by rw [e1]; simp only; omega⟩⟩)⟩
      · simp [e6, hfr, h3, List.range_succ]
      · rw [e2]; simp only; omega
    · rcases hd with ⟨hpn, hrev, hcf⟩ | ⟨hpn, hrev, hcf⟩
      · have hfr : k.currentFrame - 1 = frameAt false n m := by
          rw [hm, frameAt_swing n q p hn hp1 hp2, if_pos hpn]; omega
        simp only [hrev, Bool.false_eq_true, not_false_eq_true, if_true] at hj
        by_cases hl : k.currentFrame ≥ k.frames.length
        · rw [if_pos hl] at hj
          subst hj
          refine ⟨e4.trans (by first | exact h1 | rfl), by rw [e5]; exact h2, m + 1, ?_, .inr (.inl ⟨q, p + 1, by omega, by omega, by omega, ?_, .inr ⟨by omega, by rw [e3], ?_⟩⟩)⟩
          · simp [e6, hfr, h3, List.range_succ]
          · rw [e2]; exact hrep
          · rw [e1]; simp only; omega
        · rw [if_neg hl] at hj
          subst hj
          refine ⟨e4.trans (by first | exact h1 | rfl), by rw [e5]; exact h2, m + 1, ?_, .inr (.inl ⟨q, p + 1, by omega, by omega, by omega, ?_, .inl ⟨by omega, by rw [e3], ?_⟩⟩)⟩
          · simp [e6, hfr, h3, List.range_succ]
          · rw [e2]; exact hrep
          · rw [e1]; simp only; omega
      · have hfr : k.currentFrame - 1 = frameAt false n m := by
          rw [hm, frameAt_swing n q p hn hp1 hp2, if_neg (by omega)]; omega
        simp only [hrev, not_true_eq_false, if_false] at hj
        by_cases hl : k.currentFrame = 1
        · rw [if_pos hl] at hj
          have hpe : p = 2 * (n - 1) := by omega
          unfold KeyFrames.checkRepeat at hj
          simp only at hj
          by_cases hr1 : k.repeat_ = 1
          · rw [if_pos hr1] at hj
            simp only [Bool.false_eq_true, if_false] at hj
            subst hj
            refine ⟨e4.trans (by first | exact h1 | rfl), by rw [e5]; exact h2, m + 1, ?_, .inr (.inr ⟨by omega, ?_, by rw [e1]⟩)⟩
            · simp [e6, hfr, h3, List.range_succ]
            · have : r = q + 1 := by omega
              rw [this, Nat.mul_succ]; omega
          · rw [if_neg hr1] at hj
            have hmq : m + 1 = 2 * (n - 1) * (q + 1) + 1 := by rw [Nat.mul_succ]; omega
            by_cases hr0 : k.repeat_ > 0
            · rw [if_pos hr0] at hj
              simp only [if_true] at hj
              subst hj
              refine ⟨e4.trans (by first | exact h1 | rfl), by rw [e5]; exact h2, m + 1, ?_, .inr (.inl ⟨q + 1, 1, hmq, by omega, by omega, .inr ⟨?_, ?_⟩, .inl ⟨by omega, by rw [e3], by rw [e1]⟩⟩)⟩
              · simp [e6, hfr, h3, List.range_succ]
              · rw [e2]; simp only; omega
              · rw [e2]; simp only; omega
            · rw [if_neg hr0] at hj
              simp only [if_true] at hj
              subst hj
              refine ⟨e4.trans (by first | exact h1 | rfl), by rw [e5]; exact h2, m + 1, ?_, .inr (.inl ⟨q + 1, 1, hmq, by omega, by omega, .inl ⟨?_, ?_⟩, .inl ⟨by omega, by rw [e3], by rw [e1]⟩⟩)⟩
              · simp [e6, hfr, h3, List.range_succ]
              · omega
              · rw [e2]; simp only; omega
        · rw [if_neg hl] at hj
          subst hj
          refine ⟨e4.trans (by first | exact h1 | rfl), by rw [e5]; exact h2, m + 1, ?_, .inr (.inl ⟨q, p + 1, by omega, by omega, by omega, ?_, .inr ⟨by omega, by rw [e3], ?_⟩⟩)⟩
          · simp [e6, hfr, h3, List.range_succ]
          · rw [e2]; exact hrep
          · rw [e1]; simp only; omega
    · omega
  · exact ⟨e4.trans h1, by rw [e5]; exact h2, m, by rw [e6]; exact h3, by rw [e1, e2, e3]; exact h4⟩

/-- **C181, for at least two frames of an animation that goes back and forth.**  After `start(r)` and any updates the frames played were the first ones of the order, `r` times (for ever if `r` is 0);
`isAnimating` says whether there are more to start, and an update that finds the first animator at rest starts the next one. -/
theorem C181_order_partial (c : Config) (k : KeyFrames c) (r : Nat) (hn : 0 < k.frames.length) (hn2 : k.cycle = false → 2 ≤ k.frames.length) (times : List Nat) (k' : KeyFrames c)
    (h : play (k.start r).1 times = some k') :
    k'.log.reverse = (List.range k'.log.length).map (frameAt k.cycle k.frames.length) ∧
    (r = 0 → k'.isAnimating = true) ∧
    (0 < r → k'.log.length ≤ total k.cycle k.frames.length r ∧ (k'.isAnimating = true ↔ k'.log.length < total k.cycle k.frames.length r)) ∧
    (∀ now k'', k'.update now = some k'' → k''.log.length = k'.log.length + (open Classical in if Ready k' then 1 else 0)) := by
  have hlast : ∀ now k'', k'.update now = some k'' → k''.log.length = k'.log.length + (open Classical in if Ready k' then 1 else 0) := by
    intro now k'' h''
    have hnl : ∀ j : KeyFrames c, j.next.1.log = j.log := by
      intro j
      unfold KeyFrames.next KeyFrames.checkRepeat
      simp only
      repeat' split
      all_goals rfl
    rcases update_order now k' k'' h'' with ⟨hr, as, j, hj, -, -, -, -, -, e6⟩ | ⟨hr, -, -, -, -, -, e6⟩
    · rw [if_pos hr, e6, hj, hnl]; rfl
    · rw [if_neg hr, e6]; rfl
  cases hc : k.cycle
  · have hn := hn2 hc
    have h0 : Swinging k.frames.length r (k.start r).1 := by
      unfold KeyFrames.start
      rw [if_pos (by omega)]
      exact ⟨hc, rfl, 0, rfl, .inl ⟨rfl, rfl, rfl, rfl⟩⟩
    have key : ∀ (times : List Nat) (j : KeyFrames c), Swinging k.frames.length r j → play j times = some k' → Swinging k.frames.length r k' := by
      intro times
      induction times with
      | nil => intro j hj hp; simp only [play, Option.some.injEq] at hp; subst hp; exact hj
      | cons t ts ih =>
        intro j hj hp
        rw [play] at hp
        cases hu : j.update t with
        | none => rw [hu] at hp; simp at hp
        | some j' => rw [hu] at hp; exact ih j' (swinging_update _ r hn t j j' hu hj) hp
    obtain ⟨-, -, m, h3, h4⟩ := key times _ h0 h
    have hlen : k'.log.length = m := by rw [h3]; simp
    refine ⟨by rw [hlen, h3, List.reverse_reverse], ?_, ?_, hlast⟩
    · intro hr
      simp only [KeyFrames.isAnimating, decide_eq_true_eq]
      rcases h4 with h4 | ⟨q, p, _, _, _, _, h4 | h4⟩ | h4 <;> omega
    · intro hr
      rw [hlen]
      simp only [KeyFrames.isAnimating, decide_eq_true_eq, total, Bool.false_eq_true, if_false]
      rcases h4 with h4 | ⟨q, p, hm, hp1, hp2, hrep, h4⟩ | h4
      · have : m < 1 + 2 * (k.frames.length - 1) * r := by omega
        exact ⟨by omega, by omega⟩
      · have hq : q + 1 ≤ r := by omega
        have : 2 * (k.frames.length - 1) * (q + 1) ≤ 2 * (k.frames.length - 1) * r := Nat.mul_le_mul_left _ hq
        rw [Nat.mul_succ] at this
        exact ⟨by omega, by omega⟩
      · exact ⟨by omega, by omega⟩
  · have h0 : Cycling k.frames.length r (k.start r).1 := by
      unfold KeyFrames.start
      rw [if_pos (by omega)]
      exact ⟨hc, rfl, 0, rfl, .inl ⟨0, 0, rfl, hn, rfl, by simp only; omega⟩⟩
    have key : ∀ (times : List Nat) (j : KeyFrames c), Cycling k.frames.length r j → play j times = some k' → Cycling k.frames.length r k' := by
      intro times
      induction times with
      | nil => intro j hj hp; simp only [play, Option.some.injEq] at hp; subst hp; exact hj
      | cons t ts ih =>
        intro j hj hp
        rw [play] at hp
        cases hu : j.update t with
        | none => rw [hu] at hp; simp at hp
        | some j' => rw [hu] at hp; exact ih j' (cycling_update _ r t j j' hu hj) hp
    obtain ⟨-, -, m, h3, h4⟩ := key times _ h0 h
    have hlen : k'.log.length = m := by rw [h3]; simp
    refine ⟨by rw [hlen, h3, List.reverse_reverse], ?_, ?_, hlast⟩
    · intro hr
      simp only [KeyFrames.isAnimating, decide_eq_true_eq]
      rcases h4 with ⟨q, p, _, _, h4, _⟩ | h4 <;> omega
    · intro hr
      rw [hlen]
      simp only [KeyFrames.isAnimating, decide_eq_true_eq, total, if_true]
      rcases h4 with ⟨q, p, hm, hp1, hp2, hrep⟩ | h4
      · have hq : q + 1 ≤ r := by omega
        have : k.frames.length * (q + 1) ≤ k.frames.length * r := Nat.mul_le_mul_left _ hq
        rw [Nat.mul_succ] at this
        exact ⟨by omega, by omega⟩
      · exact ⟨by omega, by omega⟩

/-- All animators are on the way to their values. -/
private def Playing {c : Config} (t0 len t : Nat) : List (Animation c) → List (BitVec c.v) → Prop
  | [], _ => True
  | _ :: _, [] => False
  | a :: as, x :: xs => (∃ r v0, At t0 len r v0 x t a) ∧ Playing t0 len t as xs

private theorem startAll_playing {c : Config} (t0 len : Nat) (h0 : 0 < len) (h1 : len < 2 ^ c.tb) : ∀ (as : List (Animation c)) (xs : List (BitVec c.v)) (bs : List (Animation c)),
    startAll t0 len as xs = some bs → Playing t0 len t0 bs xs ∧ bs.length = as.length := by
  intro as
  induction as with
  | nil => intro xs bs h; simp only [startAll, Option.some.injEq] at h; subst h; exact ⟨trivial, rfl⟩
  | cons a as ih =>
    intro xs bs h
    cases xs with
    | nil => simp [startAll] at h
    | cons x xs =>
      rw [startAll] at h
      cases ha : a.animateTo t0 x len with
      | none => rw [ha] at h; simp at h
      | some b =>
        rw [ha] at h
        cases hs : startAll t0 len as xs with
        | none => simp [hs] at h
        | some bs' =>
          simp only [hs, bind, Option.bind, Option.some.injEq] at h
          subst h
          obtain ⟨i1, i2⟩ := ih xs bs' hs
          refine ⟨⟨?_, i1⟩, by simp [i2]⟩
          unfold Animation.animateTo at ha
          rw [if_neg (by omega)] at ha
          simp only [Nat.mod_eq_of_lt h1] at ha
          cases hr : Ramp.initialize c a.currentValue x len with
          | none => rw [hr] at ha; simp at ha
          | some r =>
            rw [hr] at ha
            simp only [bind, Option.bind, Option.some.injEq] at ha
            subst ha
            exact ⟨r, a.currentValue, .inl ⟨by omega, le_refl _, by simp, rfl, rfl, by rw [Nat.sub_self]; rfl, by rw [if_pos rfl]⟩⟩

private theorem playing_update {c : Config} (h8 : 8 ≤ c.fast8) (t0 len t u : Nat) (htu : t ≤ u) (hu : u < t + 256) : ∀ (as : List (Animation c)) (xs : List (BitVec c.v)),
    Playing t0 len t as xs → Playing t0 len u (as.map fun a => (a.update u).1) xs := by
  intro as
  induction as with
  | nil => intro xs _; trivial
  | cons a as ih =>
    intro xs h
    cases xs with
    | nil => exact h.elim
    | cons x xs =>
      obtain ⟨⟨r, v0, h1⟩, h2⟩ := h
      exact ⟨⟨r, v0, at_update h8 t0 len r v0 x t u a h1 htu hu⟩, ih xs h2⟩

private theorem playing_end {c : Config} (t0 len t : Nat) (ht : t0 + len ≤ t) : ∀ (as : List (Animation c)) (xs : List (BitVec c.v)), Playing t0 len t as xs →
    as.map Animation.currentValue = xs.take as.length ∧ ∀ a ∈ as, a.isAnimating = false := by
  intro as
  induction as with
  | nil => intro xs _; exact ⟨by simp, by simp⟩
  | cons a as ih =>
    intro xs h
    cases xs with
    | nil => exact h.elim
    | cons x xs =>
      obtain ⟨⟨r, v0, h1⟩, h2⟩ := h
      obtain ⟨i1, i2⟩ := ih xs h2
      rcases h1 with h1 | h1
      · omega
      · refine ⟨by simp [i1, h1.2.2], ?_⟩
        intro b hb
        rcases List.mem_cons.1 hb with hb | hb
        · subst hb; simp [Animation.isAnimating, h1.2.1]
        · exact i2 b hb

private theorem playing_head {c : Config} (t0 len t : Nat) (ht : t < t0 + len) (as : List (Animation c)) (xs : List (BitVec c.v)) (h : Playing t0 len t as xs) :
    ∀ a ∈ as.head?, a.isAnimating = true := by
  cases as with
  | nil => simp
  | cons a as =>
    cases xs with
    | nil => exact h.elim
    | cons x xs =>
      obtain ⟨⟨r, v0, h1⟩, -⟩ := h
      intro b hb
      simp only [List.head?_cons, Option.mem_def, Option.some.injEq] at hb
      subst hb
      rcases h1 with h1 | h1
      · simp only [Animation.isAnimating, h1.2.2.1, decide_eq_true_eq]; omega
      · omega

/-- **C181.** A frame of `len` ms that is started by an update at time `t0` is not disturbed until it ends, and the first update after `t0 + len` leaves all animators with their values of the frame, and at rest. -/
theorem C181_frame (c : Config) (hc : Supported c) (k k1 : KeyFrames c) (t0 : Nat) (h : k.update t0 = some k1) (hr : Ready k) (hne : k.animators ≠ [])
    (frame : Frame c) (hf : k.frames[k.currentFrame - 1]? = some frame) (h0 : 0 < frame.length) (h1 : frame.length < 2 ^ c.tb)
    (times : List Nat) (u : Nat) (ho : Often t0 (times ++ [u])) (hbefore : ∀ t ∈ times, t < t0 + frame.length) (hu : t0 + frame.length ≤ u) :
    ∃ k2, play k1 (times ++ [u]) = some k2 ∧ k2.log = (k.currentFrame - 1) :: k.log ∧ k2.currentFrame = k1.currentFrame ∧
      k2.animators.map Animation.currentValue = frame.value.take k.animators.length ∧ ∀ a ∈ k2.animators, a.isAnimating = false := by
  obtain ⟨-, h8⟩ := fits c hc
  have hpos : 0 < k.currentFrame := by simpa [KeyFrames.isAnimating] using hr.1
  -- the state after the first update
  have hstart : Playing t0 frame.length t0 k1.animators frame.value ∧ k1.animators.length = k.animators.length ∧ k1.log = (k.currentFrame - 1) :: k.log := by
    unfold KeyFrames.update at h
    rw [if_pos hpos] at h
    have hnl : ∀ j : KeyFrames c, j.next.1.log = j.log ∧ j.next.1.animators = j.animators := by
      intro j
      unfold KeyFrames.next KeyFrames.checkRepeat
      simp only
      repeat' split
      all_goals exact ⟨rfl, rfl⟩
    cases hh : k.animators.head? with
    | none => rw [hh] at h; simp at h
    | some a =>
      rw [hh] at h
      simp only [bind, Option.bind] at h
      rw [if_pos (by rw [hr.2 a (by rw [hh]; rfl)]; simp), hf] at h
      simp only at h
      cases hs : startAll t0 frame.length k.animators frame.value with
      | none => rw [hs] at h; simp at h
      | some as =>
        rw [hs] at h
        simp only at h
        obtain ⟨p1, p2⟩ := startAll_playing t0 frame.length h0 h1 _ _ _ hs
        split at h
        · simp only [Option.some.injEq] at h
          subst h
          refine ⟨?_, ?_, ?_⟩
          · simp only [(hnl _).2]
            exact playing_update h8 t0 frame.length t0 t0 (le_refl _) (by omega) _ _ p1
          · simp only [(hnl _).2, List.length_map, p2]
          · simp only [(hnl _).1]
        · simp only [Option.some.injEq] at h
          subst h
          exact ⟨by rw [(hnl _).2]; exact p1, by rw [(hnl _).2]; exact p2, by rw [(hnl _).1]⟩
  -- updates while it runs
  have step : ∀ (j : KeyFrames c) (t v : Nat), Playing t0 frame.length t j.animators frame.value → j.animators.length = k.animators.length → t < t0 + frame.length →
      t ≤ v → v < t + 256 → ∃ j', j.update v = some j' ∧ Playing t0 frame.length v j'.animators frame.value ∧ j'.log = j.log ∧ j'.currentFrame = j.currentFrame ∧
        j'.animators.length = k.animators.length := by
    intro j t v hp hl ht htv hv
    have hp' := playing_update h8 t0 frame.length t v htv hv _ _ hp
    refine ⟨{ j with animators := j.animators.map fun a => (a.update v).1 }, ?_, hp', rfl, rfl, by simp [hl]⟩
    unfold KeyFrames.update
    split
    · cases hh : j.animators.head? with
      | none =>
        rw [List.head?_eq_none_iff] at hh
        rw [hh] at hl
        simp only [List.length_nil] at hl
        exact absurd (List.length_eq_zero_iff.1 hl.symm) hne
      | some a =>
        have := playing_head t0 frame.length t ht _ _ hp a (by rw [hh]; rfl)
        simp [this]
    · rfl
  obtain ⟨s1, s2, s3⟩ := hstart
  have main : ∀ (times : List Nat) (j : KeyFrames c) (t : Nat), Playing t0 frame.length t j.animators frame.value → j.animators.length = k.animators.length →
      t < t0 + frame.length → Often t (times ++ [u]) → (∀ t ∈ times, t < t0 + frame.length) →
      ∃ k2, play j (times ++ [u]) = some k2 ∧ k2.log = j.log ∧ k2.currentFrame = j.currentFrame ∧
        k2.animators.map Animation.currentValue = frame.value.take k.animators.length ∧ ∀ a ∈ k2.animators, a.isAnimating = false := by
    intro times
    induction times with
    | nil =>
      intro j t hp hl ht ho _
      cases ho with
      | cons _ _ _ o1 o2 _ =>
        obtain ⟨j', e1, e2, e3, e4, e5⟩ := step j t u hp hl ht o1 o2
        obtain ⟨f1, f2⟩ := playing_end t0 frame.length u hu _ _ e2
        refine ⟨j', by simp [play, e1], e3, e4, by rw [f1, e5], f2⟩
    | cons v vs ih =>
      intro j t hp hl ht ho hb
      cases ho with
      | cons _ _ _ o1 o2 o3 =>
        obtain ⟨j', e1, e2, e3, e4, e5⟩ := step j t v hp hl ht o1 o2
        obtain ⟨k2, g1, g2, g3, g4, g5⟩ := ih j' v e2 e5 (hb v (by simp)) o3 (fun t ht' => hb t (List.mem_cons_of_mem _ ht'))
        refine ⟨k2, ?_, by rw [g2, e3], by rw [g3, e4], g4, g5⟩
        simp only [List.cons_append, play, e1, bind, Option.bind]
        exact g1
  obtain ⟨k2, g1, g2, g3, g4, g5⟩ := main times k1 t0 s1 s2 (by omega) ho hbefore
  exact ⟨k2, g1, by rw [g2, s3], g3, g4, g5⟩

/-- **C181.** `stop` leaves all animators at rest with the values of the last frame, or of the first one on the way back. -/
theorem C181_stop (c : Config) (k k' : KeyFrames c) (h : k.stop = some k') (hn : 0 < k.frames.length) (frame : Frame c)
    (hf : k.frames[if k.reversed then 0 else k.frames.length - 1]? = some frame) (hl : frame.value.length = k.animators.length) :
    k'.isAnimating = false ∧ k'.animators.map Animation.currentValue = frame.value ∧ ∀ a ∈ k'.animators, a.isAnimating = false := by
  unfold KeyFrames.stop at h
  rw [if_pos hn, hf] at h
  simp only [bind, Option.bind, Option.some.injEq] at h
  subst h
  refine ⟨rfl, ?_, ?_⟩
  · simp only [KeyFrames.cancel, List.map_map]
    have : ∀ (as : List (Animation c)) (xs : List (BitVec c.v)), xs.length = as.length →
        (List.zipWith Animation.setValue as xs).map (Animation.currentValue ∘ Animation.stop) = xs := by
      intro as
      induction as with
      | nil => intro xs h; simpa using h
      | cons a as ih =>
        intro xs h
        cases xs with
        | nil => simp at h
        | cons x xs => simp only [List.zipWith_cons_cons, List.map_cons, ih xs (by simpa using h)]; rfl
    exact this _ _ hl
  · intro a ha
    simp only [KeyFrames.cancel, List.mem_map] at ha
    obtain ⟨b, -, rfl⟩ := ha
    rfl

/-- Key frames for one animator. -/
private def one (cycle : Bool) (frames : List (Nat × BitVec 8)) : KeyFrames (arm8 false) :=
  ⟨[fresh (arm8 false) 0], frames.map fun f => ⟨f.1, [f.2]⟩, 0, 0, cycle, false, []⟩

/-- Three frames of 2, 0 and 1 ms up and down twice, with updates every millisecond. -/
example : (play ((one false [(2, 100), (0, 200), (1, 50)]).start 2).1 (List.range 20)).map (fun k => (k.log.reverse, k.isAnimating)) =
    some ([0, 1, 2, 1, 0, 1, 2, 1, 0], false) ∧ total false 3 2 = 9 := by decide +kernel

example : ((play ((one false [(2, 100), (0, 200), (9, 50)]).start 2).1 (List.range 4)).bind KeyFrames.stop).map (fun k => k.animators.map Animation.currentValue) = some [50] := by
  decide +kernel

/-- **C181, refuted** for a single frame that goes back and forth: it is played once, and not for ever. -/
theorem C181_single_counterexample :
    (play ((one false [(2, 100)]).start 0).1 (List.range 10)).map (fun k => (k.log.reverse, k.isAnimating)) = some ([0], false) := by
  decide +kernel

/-- **C181, refuted** for `isAnimating`: it is `false` as soon as the last frame has started.  Who waits for it sees the animation stop before the last frame. -/
theorem C181_last_counterexample :
    (play ((one true [(100, 100), (100, 0)]).start 1).1 [0, 50, 100, 101]).map (fun k => (k.log.reverse, k.isAnimating, k.animators.map Animation.currentValue)) =
      some ([0, 1], false, [100]) := by
  decide +kernel

/-- **C181, refuted** for the time of frames: each is started by the update after the one that ends the last.  With updates every millisecond frames of 1 ms take 2 ms. -/
theorem C181_late_counterexample :
    (play ((one true [(1, 100), (1, 0)]).start 0).1 (List.range 9)).map (fun k => k.log.reverse) = some [0, 1, 0, 1, 0] := by
  decide +kernel

/-! ## C182: Pulse, Indicator, Strobe -/

/-- **C182.** The two frames of `Pulse` take the period together, and the first one the part asked for, rounded down. -/
theorem C182_pulse (tb period duty : Nat) (hp : period < 2 ^ tb) (ho : period * 100 < 2 ^ 32) :
    (pulse tb period duty).1 = period * min duty 100 / 100 ∧ (pulse tb period duty).1 + (pulse tb period duty).2 = period := by
  have hd : (if duty > 100 then 100 else duty) = min duty 100 := by split <;> omega
  unfold pulse
  simp only [hd]
  have hm : period * min duty 100 ≤ period * 100 := Nat.mul_le_mul_left _ (by omega)
  rw [Nat.mod_eq_of_lt (by omega : period * min duty 100 < 2 ^ 32)]
  have hle : period * min duty 100 / 100 ≤ period := by omega
  rw [Nat.mod_eq_of_lt (by omega : period * min duty 100 / 100 < 2 ^ tb)]
  refine ⟨rfl, ?_⟩
  have : period + 2 ^ tb - period * min duty 100 / 100 = (period - period * min duty 100 / 100) + 2 ^ tb := by omega
  rw [this, Nat.add_mod_right, Nat.mod_eq_of_lt (by omega)]
  omega

example : pulse 16 1000 30 = (300, 700) := by decide

/-- **C182, refuted** for `Indicator`: after `setPeriod` a period is too long by the time of the fades, whatever they and the period are. -/
theorem C182_indicator_counterexample (i : Four) (period duty : Nat) (hp : period < 2 ^ 16) (h0 : i.f0 < 2 ^ 16) (h2 : i.f2 < 2 ^ 16) :
    let j := i.setPeriod 16 period duty
    j.f0 + j.f1 + j.f2 + j.f3 = period + (i.f0 + i.f2) := by
  have hd : (if duty > 100 then 100 else duty) = min duty 100 := by split <;> omega
  unfold Four.setPeriod
  simp only [hd]
  have hm : period * min duty 100 ≤ period * 100 := Nat.mul_le_mul_left _ (by omega)
  rw [Nat.mod_eq_of_lt (by omega : period * min duty 100 < 2 ^ 32), Nat.mod_eq_of_lt (by omega : i.f0 + i.f2 < 2 ^ 32)]
  have hle : period * min duty 100 / 100 ≤ period := by omega
  rw [Nat.mod_eq_of_lt (by omega : period * min duty 100 / 100 < 2 ^ 16)]
  generalize period * min duty 100 / 100 = x at *
  split <;> omega

example : Four.make.f0 + Four.make.f1 + Four.make.f2 + Four.make.f3 = 1000 ∧ Four.make.setPeriod 16 1000 50 = ⟨75, 310, 115, 690⟩ ∧ 75 + 310 + 115 + 690 = 1190 := by decide

/-- **C182, if the light is on for long enough.**  `setFadeTimes` of `Indicator` keeps the period. -/
theorem C182_fades_partial (i : Four) (onFade offFade : Nat) (h : i.f0 + i.f1 + i.f2 < 2 ^ 16) (hf : onFade + offFade ≤ i.f0 + i.f1 + i.f2) :
    let j := i.setFadeTimes 16 onFade offFade
    j.f0 = onFade ∧ j.f2 = offFade ∧ j.f0 + j.f1 + j.f2 + j.f3 = i.f0 + i.f1 + i.f2 + i.f3 := by
  unfold Four.setFadeTimes
  simp only
  rw [Nat.mod_eq_of_lt (by omega : i.f1 + (i.f0 + i.f2) < 2 ^ 16), Nat.mod_eq_of_lt (by omega : onFade + offFade < 2 ^ 32), if_neg (by omega)]
  refine ⟨trivial, trivial, by omega⟩

example : Four.make.setFadeTimes 16 100 200 = ⟨100, 265, 200, 435⟩ := by decide

private def Eight.sum (s : Eight) : Nat := s.f0 + s.f1 + s.f2 + s.f3 + s.f4 + s.f5 + s.f6 + s.f7

/-- **C182, refuted** for `Strobe`: `setPeriod(1000)` makes a period of 1100 ms (the pause is not subtracted, and the second flash is not shortened), `setPeriod(300)` one of 65866 ms,
and a call that returns `false` has changed the frames. -/
theorem C182_strobe_counterexample :
    Eight.sum Eight.make = 1000 ∧ Eight.sum (Eight.make.setPeriod 16 1000 7 10 10).1 = 1100 ∧ Eight.sum (Eight.make.setPeriod 16 300 7 10 10).1 = 65866 ∧
    ((Eight.make.setPeriod 16 1000 50 60 0).2 = false ∧ Eight.sum (Eight.make.setPeriod 16 1000 50 60 0).1 = 1310) := by
  decide

end Props.Animation
