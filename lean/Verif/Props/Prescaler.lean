import Verif.Model.Prescaler
import Mathlib.Tactic.Linarith
import Mathlib.Tactic.FieldSimp
import Mathlib.Tactic.Positivity
import Mathlib.Tactic.NormNum
import Mathlib.Tactic.Ring
import Mathlib.Tactic.Push
import Mathlib.Data.List.Sort
set_option autoImplicit false
/- Properties C33 and C34. -/
namespace Props
open Modm.Prescaler

/-- what is assumed of `double` rounding: monotone, exact on integers and half-integers up to 2^53, and relative error at
most 2^-53 on numbers that are not tiny. Satisfied by IEEE 754 round-to-nearest (and by exact arithmetic). -/
structure DoubleRounding (rnd : ℚ → ℚ) : Prop where
  mono : ∀ a b, a ≤ b → rnd a ≤ rnd b
  nat : ∀ n : ℕ, n ≤ 2 ^ 53 → rnd n = n
  half : ∀ n : ℕ, n ≤ 2 ^ 53 → rnd (n / 2) = n / 2
  err : ∀ q : ℚ, 1 / 2 ^ 100 ≤ q → |rnd q - q| ≤ q / 2 ^ 53

theorem rounding_id : DoubleRounding id :=
  ⟨fun _ _ h => h, fun _ _ => rfl, fun _ _ => rfl, fun q hq => by
    have : (0 : ℚ) ≤ q := le_trans (by positivity) hq
    simp; positivity⟩

section
variable {rnd : ℚ → ℚ} (hr : DoubleRounding rnd) {inp des : Nat} (hi0 : 0 < inp) (hi : inp ≤ 2 ^ 50) (hd0 : 0 < des)
  (hd : des ≤ 2 ^ 50)
include hr hi hi0 hd hd0

theorem ratio_eq : ratio rnd inp des = rnd ((inp : ℚ) / des) := by
  unfold ratio
  rw [hr.nat inp (le_trans hi (by norm_num)), hr.nat des (le_trans hd (by norm_num))]

theorem ratio_err : |rnd ((inp : ℚ) / des) - (inp : ℚ) / des| < 1 / (6 * des) := by
  have h1 : (1 : ℚ) ≤ inp := by exact_mod_cast hi0
  have h2 : (0 : ℚ) < des := by exact_mod_cast hd0
  have h3 : (des : ℚ) ≤ 2 ^ 50 := by exact_mod_cast hd
  have h4 : (inp : ℚ) ≤ 2 ^ 50 := by exact_mod_cast hi
  have hq : (1 : ℚ) / 2 ^ 100 ≤ (inp : ℚ) / des := by
    rw [div_le_div_iff₀ (by positivity) h2]; norm_num; nlinarith
  refine lt_of_le_of_lt (hr.err _ hq) ?_
  rw [div_div, div_lt_div_iff₀ (by positivity) (by positivity)]
  nlinarith

theorem cmp_le (p : Nat) (hp : p ≤ 2 ^ 53) : ratio rnd inp des ≤ p ↔ inp ≤ p * des := by
  rw [ratio_eq hr hi0 hi hd0 hd]
  have h2 : (0 : ℚ) < des := by exact_mod_cast hd0
  have he := abs_lt.1 (ratio_err hr hi0 hi hd0 hd)
  constructor
  · intro h
    by_contra hc
    have : ((p * des + 1 : Nat) : ℚ) ≤ inp := by exact_mod_cast (by omega : p * des + 1 ≤ inp)
    push_cast at this
    have h5 : (p : ℚ) + 1 / des ≤ (inp : ℚ) / des := by
      rw [← sub_nonneg]; have : (inp : ℚ) / des - (p + 1 / des) = (inp - (p * des + 1)) / des := by field_simp
      rw [this]; apply div_nonneg <;> linarith
    have h6 : (1 : ℚ) / (6 * des) < 1 / des := by
      rw [div_lt_div_iff₀ (by positivity) h2]; linarith
    linarith [he.1]
  · intro h
    rw [← hr.nat p hp]
    apply hr.mono
    rw [div_le_iff₀ h2]
    exact_mod_cast h

theorem cmp_lt (p : Nat) (hp : p ≤ 2 ^ 53) : ratio rnd inp des < p ↔ inp < p * des := by
  rw [ratio_eq hr hi0 hi hd0 hd]
  have h2 : (0 : ℚ) < des := by exact_mod_cast hd0
  have he := abs_lt.1 (ratio_err hr hi0 hi hd0 hd)
  constructor
  · intro h
    by_contra hc
    have h7 : (p : ℚ) ≤ (inp : ℚ) / des := by
      rw [le_div_iff₀ h2]; exact_mod_cast (not_lt.1 hc)
    have := hr.mono _ _ h7
    rw [hr.nat p hp] at this
    linarith
  · intro h
    have : ((inp + 1 : Nat) : ℚ) ≤ (p * des : Nat) := by exact_mod_cast h
    push_cast at this
    have h5 : (inp : ℚ) / des ≤ p - 1 / des := by
      rw [← sub_nonneg]; have : (p : ℚ) - 1 / des - (inp : ℚ) / des = (p * des - (inp + 1)) / des := by field_simp; ring
      rw [this]; apply div_nonneg <;> linarith
    have h6 : (1 : ℚ) / (6 * des) < 1 / des := by
      rw [div_lt_div_iff₀ (by positivity) h2]; linarith
    linarith [he.2]

theorem le_mid (a b : Nat) (ha : a + b ≤ 2 ^ 53) : rnd des ≤ middle rnd a b ↔ 2 * des ≤ a + b := by
  unfold middle
  rw [hr.nat des (le_trans hd (by norm_num)), hr.nat _ ha, hr.half _ ha, le_div_iff₀ (by norm_num)]
  constructor
  · intro h
    have : ((des * 2 : Nat) : ℚ) ≤ (a + b : Nat) := by push_cast; push_cast at h; exact h
    have := Nat.cast_le.1 this
    omega
  · intro h
    have : ((des * 2 : Nat) : ℚ) ≤ (a + b : Nat) := by exact_mod_cast (by omega : des * 2 ≤ a + b)
    push_cast at this ⊢; exact this

theorem floor_ratio (h32 : inp / des < 2 ^ 53) : (⌊ratio rnd inp des⌋).toNat = inp / des := by
  have : ⌊ratio rnd inp des⌋ = ((inp / des : Nat) : Int) := by
    rw [Int.floor_eq_iff]
    constructor
    · rw [Int.cast_natCast, ← not_lt, cmp_lt hr hi0 hi hd0 hd _ (by omega), not_lt]
      exact Nat.div_mul_le_self inp des
    · have := (cmp_lt hr hi0 hi hd0 hd (inp / des + 1) (by omega)).2 (Nat.lt_mul_of_div_lt (Nat.lt_succ_self _) hd0)
      push_cast at this ⊢; exact this
  rw [this]; exact Int.toNat_natCast _
end

/-- specification: distance of the generated (integer) frequency from the desired one -/
def freqError (inp des p : Nat) : Nat := ((inp / p : Int) - des).natAbs

/-- the chosen entry is at the reported index of the list and no other entry gives a closer frequency -/
def Optimal (inp des : Nat) (l : List Nat) (r : Result) : Prop :=
  l[r.index]? = some r.prescaler ∧ ∀ q ∈ l, freqError inp des r.prescaler ≤ freqError inp des q

theorem div_ge (inp des p : Nat) (hp : 0 < p) (h : p * des ≤ inp) : des ≤ inp / p := by
  rw [Nat.le_div_iff_mul_le hp, Nat.mul_comm]; exact h

theorem div_lt (inp des p : Nat) (hp : 0 < p) (h : inp < p * des) : inp / p < des := by
  rw [Nat.div_lt_iff_lt_mul hp, Nat.mul_comm]; exact h

theorem scan_spec {rnd : ℚ → ℚ} (hr : DoubleRounding rnd) {inp des : Nat} (hi0 : 0 < inp) (hi : inp ≤ 2 ^ 50)
    (hd0 : 0 < des) (hd : des ≤ 2 ^ 50) (post pre : List Nat) (fl : Nat) (hp : ∀ p ∈ post, p ≤ 2 ^ 53) (hfl53 : fl ≤ 2 ^ 53)
    (hpre : pre.getLast? = some fl) (hfl : fl * des ≤ inp) :
    ∃ fl' iF ce iC, scan (ratio rnd inp des) post (fl, pre.length, fl, pre.length) = (fl', iF, ce, iC) ∧
      ((pre ++ post)[iF - 1]? = some fl' ∧ (pre ++ post)[iC - 1]? = some ce ∧ fl' * des ≤ inp) ∧
      ((iC = iF + 1 ∧ 0 < iF ∧ inp < ce * des) ∨ (iC = iF ∧ ce = fl' ∧ iF = (pre ++ post).length)) := by
  induction post generalizing pre fl with
  | nil =>
    refine ⟨fl, pre.length, fl, pre.length, rfl, ⟨?_, ?_, hfl⟩, Or.inr ⟨rfl, rfl, by simp⟩⟩ <;>
    · rw [List.append_nil, ← List.getLast?_eq_getElem?]; exact hpre
  | cons p ps ih =>
    have hpl : 0 < pre.length := by
      rcases pre with _ | _
      · simp at hpre
      · simp
    have hfle : (fl : ℚ) ≤ ratio rnd inp des := by
      rw [← not_lt, cmp_lt hr hi0 hi hd0 hd fl hfl53]; omega
    unfold scan
    by_cases h : inp < p * des
    · have h' : ratio rnd inp des < p := (cmp_lt hr hi0 hi hd0 hd p (hp p List.mem_cons_self)).2 h
      rw [if_pos ⟨hfle, h'⟩]
      refine ⟨_, _, _, _, rfl, ⟨?_, ?_, hfl⟩, Or.inl ⟨rfl, hpl, h⟩⟩
      · rw [List.getElem?_append_left (by omega), ← List.getLast?_eq_getElem?]; exact hpre
      · rw [Nat.add_sub_cancel, List.getElem?_append_right (Nat.le_refl _)]; simp
    · have h' : ¬ ratio rnd inp des < p := by rw [cmp_lt hr hi0 hi hd0 hd p (hp p List.mem_cons_self)]; exact h
      rw [if_neg (fun hc => h' hc.2)]
      have := ih (pre ++ [p]) p (fun q hq => hp q (List.mem_cons_of_mem _ hq)) (hp p List.mem_cons_self)
        (by simp) (by omega)
      simpa using this

theorem sorted_split (l : List Nat) (hs : l.Pairwise (· ≤ ·)) (i : Nat) (a b : Nat) (ha : l[i]? = some a)
    (hb : l[i + 1]? = some b) (q : Nat) (hq : q ∈ l) : q ≤ a ∨ b ≤ q := by
  obtain ⟨k, hk, rfl⟩ := List.mem_iff_getElem.1 hq
  obtain ⟨h1, rfl⟩ := List.getElem?_eq_some_iff.1 ha
  obtain ⟨h2, rfl⟩ := List.getElem?_eq_some_iff.1 hb
  rw [List.pairwise_iff_getElem] at hs
  rcases Nat.lt_or_ge i k with h | h
  · right
    rcases Nat.eq_or_lt_of_le (show i + 1 ≤ k from h) with e | e
    · subst e; exact Nat.le_refl _
    · exact hs _ _ _ _ e
  · left
    rcases Nat.eq_or_lt_of_le h with e | e
    · subst e; exact Nat.le_refl _
    · exact hs _ _ _ _ e

/-- C33: `from_range`/`from_list` returns an optimal entry of every sorted, non-empty list of positive prescalers, for all
frequencies up to 2^50 and every admissible `double` rounding. -/
theorem C33_from_range {rnd : ℚ → ℚ} (hr : DoubleRounding rnd) (inp des : Nat) (hi0 : 0 < inp) (hi : inp ≤ 2 ^ 50)
    (hd0 : 0 < des) (hd : des ≤ 2 ^ 50) (l : List Nat) (hl : l ≠ []) (hs : l.Pairwise (· ≤ ·)) (hpos : ∀ p ∈ l, 0 < p)
    (h32 : ∀ p ∈ l, p < 2 ^ 32) : ∃ r, fromRange rnd inp des l = some r ∧ Optimal inp des l r := by
  match l, hl with
  | p0 :: ps, _ =>
    have hp0 : 0 < p0 := hpos p0 List.mem_cons_self
    have h53 : ∀ p ∈ p0 :: ps, p ≤ 2 ^ 53 := fun p hp => by have := h32 p hp; omega
    simp only [fromRange]
    by_cases hc : ratio rnd inp des ≤ p0 ∨ (p0 :: ps).length = 1
    · rw [if_pos hc]
      refine ⟨_, rfl, by simp, ?_⟩
      intro q hq
      rcases hc with hc | hc
      · have hle := (cmp_le hr hi0 hi hd0 hd p0 (h53 _ List.mem_cons_self)).1 hc
        have hq0 : p0 ≤ q := by
          rcases List.mem_cons.1 hq with rfl | h
          · exact Nat.le_refl _
          · exact List.rel_of_pairwise_cons hs h
        have h1 : inp / p0 ≤ des := Nat.div_le_of_le_mul hle
        have h2 : inp / q ≤ inp / p0 := Nat.div_le_div_left hq0 hp0
        unfold freqError; simp only; omega
      · have : ps = [] := List.length_eq_zero_iff.1 (by simpa using hc)
        subst this
        rw [List.mem_singleton.1 hq]
    · rw [if_neg hc]
      rw [not_or] at hc
      have hgt : p0 * des < inp := by
        have := (cmp_le hr hi0 hi hd0 hd p0 (h53 _ List.mem_cons_self)).not.1 hc.1; omega
      have hfirst : scan (ratio rnd inp des) (p0 :: ps) (p0, 0, p0, 0) = scan (ratio rnd inp des) ps (p0, [p0].length, p0, [p0].length) := by
        conv_lhs => unfold scan
        have : ¬ ratio rnd inp des < p0 := by
          rw [cmp_lt hr hi0 hi hd0 hd p0 (h53 _ List.mem_cons_self)]; omega
        rw [if_neg (fun h => this h.2)]; rfl
      obtain ⟨fl, iF, ce, iC, he, ⟨h1, h2, h3⟩, h4⟩ := scan_spec hr hi0 hi hd0 hd ps [p0] p0
        (fun p hp => h53 p (List.mem_cons_of_mem _ hp)) (h53 _ List.mem_cons_self) rfl (by omega)
      rw [hfirst, he]
      refine ⟨_, rfl, ?_⟩
      simp only [List.cons_append, List.nil_append] at h1 h2 h4
      have hfl : 0 < fl := hpos fl (List.mem_of_getElem? h1)
      have hce : 0 < ce := hpos ce (List.mem_of_getElem? h2)
      have hu := div_ge inp des fl hfl h3
      have hub : inp / fl ≤ inp := Nat.div_le_self _ _
      have hlb : inp / ce ≤ inp := Nat.div_le_self _ _
      unfold choose
      simp only [le_mid hr hi0 hi hd0 hd (inp / fl) (inp / ce) (by omega)]
      rcases h4 with ⟨e1, e2, e3⟩ | ⟨e1, e2, e3⟩
      · have hlo := div_lt inp des ce hce e3
        have hsp : ∀ q ∈ p0 :: ps, q ≤ fl ∨ ce ≤ q := sorted_split (p0 :: ps) hs (iF - 1) fl ce h1
          (by rw [show iF - 1 + 1 = iC - 1 by omega]; exact h2)
        have key : ∀ q ∈ p0 :: ps, inp / fl ≤ inp / q ∨ inp / q ≤ inp / ce := by
          intro q hq
          rcases hsp q hq with h | h
          · left; exact Nat.div_le_div_left h (hpos q hq)
          · right; exact Nat.div_le_div_left h hce
        split
        · refine ⟨h2, fun q hq => ?_⟩
          have := key q hq
          unfold freqError; simp only; omega
        · refine ⟨h1, fun q hq => ?_⟩
          have := key q hq
          unfold freqError; simp only; omega
      · subst e2
        have key : ∀ q ∈ p0 :: ps, inp / ce ≤ inp / q := by
          intro q hq
          apply Nat.div_le_div_left _ (hpos q hq)
          obtain ⟨k, hk, rfl⟩ := List.mem_iff_getElem.1 hq
          obtain ⟨hk2, rfl⟩ := List.getElem?_eq_some_iff.1 h1
          rw [List.pairwise_iff_getElem] at hs
          rcases Nat.lt_or_ge k (iF - 1) with h | h
          · exact hs _ _ _ _ h
          · have : k = iF - 1 := by omega
            subst this; exact Nat.le_refl _
        split
        · refine ⟨h2, fun q hq => ?_⟩
          have := key q hq
          unfold freqError; simp only; omega
        · refine ⟨h1, fun q hq => ?_⟩
          have := key q hq
          unfold freqError; simp only; omega

/-- C33: `from_function` returns an optimal element for every modifier that is positive and non-decreasing on the
inclusive range. -/
theorem C33_from_function {rnd : ℚ → ℚ} (hr : DoubleRounding rnd) (inp des b e : Nat) (f : Nat → Nat) (hi0 : 0 < inp)
    (hi : inp ≤ 2 ^ 50) (hd0 : 0 < des) (hd : des ≤ 2 ^ 50) (hbe : b ≤ e) (hmono : ∀ i j, b ≤ i → i ≤ j → j ≤ e → f i ≤ f j)
    (hpos : ∀ i, b ≤ i → i ≤ e → 0 < f i ∧ f i < 2 ^ 32) :
    ∃ r, fromFunction rnd inp des b e f = some r ∧ b + r.index ≤ e ∧ r.prescaler = f (b + r.index) ∧
      ∀ i, b ≤ i → i ≤ e → freqError inp des r.prescaler ≤ freqError inp des (f i) := by
  obtain ⟨r, h1, h2, h3⟩ := C33_from_range hr inp des hi0 hi hd0 hd ((List.range (e + 1 - b)).map fun k => f (b + k))
    (by intro h; have := congrArg List.length h; simp at this; omega)
    (by
      rw [List.pairwise_iff_getElem]
      intro i j hi hj hij
      simp only [List.length_map, List.length_range] at hi hj
      simp only [List.getElem_map, List.getElem_range]
      exact hmono _ _ (by omega) (by omega) (by omega))
    (by
      intro p hp
      obtain ⟨k, hk, rfl⟩ := List.mem_map.1 hp
      rw [List.mem_range] at hk
      exact (hpos _ (by omega) (by omega)).1)
    (by
      intro p hp
      obtain ⟨k, hk, rfl⟩ := List.mem_map.1 hp
      rw [List.mem_range] at hk
      exact (hpos _ (by omega) (by omega)).2)
  obtain ⟨hlt, hv⟩ := List.getElem?_eq_some_iff.1 h2
  simp only [List.length_map, List.length_range] at hlt
  simp only [List.getElem_map, List.getElem_range] at hv
  refine ⟨r, h1, by omega, hv.symm, fun i hi1 hi2 => h3 _ ?_⟩
  exact List.mem_map.2 ⟨i - b, List.mem_range.2 (by omega), by rw [Nat.add_sub_cancel' hi1]⟩

/-- C33: `from_linear` returns the optimal element of `[begin, end]`, at its index. -/
theorem C33_from_linear {rnd : ℚ → ℚ} (hr : DoubleRounding rnd) (inp des b e : Nat) (hi0 : 0 < inp) (hi : inp ≤ 2 ^ 50)
    (hd0 : 0 < des) (hd : des ≤ 2 ^ 50) (hb : 0 < b) (hbe : b ≤ e) (h32 : inp / des + 1 < 2 ^ 32) :
    ∃ r, fromLinear rnd inp des b e = some r ∧ b ≤ r.prescaler ∧ r.prescaler ≤ e ∧ r.index = r.prescaler - b ∧
      ∀ q, b ≤ q → q ≤ e → freqError inp des r.prescaler ≤ freqError inp des q := by
  have hdv : inp / des ≤ inp := Nat.div_le_self _ _
  simp only [fromLinear, floor_ratio hr hi0 hi hd0 hd (by omega), Nat.mod_eq_of_lt h32]
  have hfl : 0 < Nat.max (inp / des) b := lt_of_lt_of_le hb (Nat.le_max_right _ _)
  have hce : 0 < Nat.min (inp / des + 1) e := Nat.lt_min.2 ⟨Nat.succ_pos _, by omega⟩
  rw [if_neg (by omega)]
  refine ⟨_, rfl, ?_⟩
  unfold linearPick
  simp only [le_mid hr hi0 hi hd0 hd (inp / Nat.max (inp / des) b) (inp / Nat.min (inp / des + 1) e) (by
    have := Nat.div_le_self inp (Nat.max (inp / des) b)
    have := Nat.div_le_self inp (Nat.min (inp / des + 1) e)
    omega)]
  have hD1 : inp / des * des ≤ inp := Nat.div_mul_le_self inp des
  have hD2 : inp < (inp / des + 1) * des := Nat.lt_mul_of_div_lt (Nat.lt_succ_self _) hd0
  generalize inp / des = d at *
  rcases Nat.lt_or_ge d b with h | h
  · -- desired ratio below the range
    have e1 : Nat.max d b = b := Nat.max_eq_right (by omega)
    have e2 : Nat.min (d + 1) e = d + 1 := Nat.min_eq_left (by omega)
    rw [e1, e2]
    have h1 := div_lt inp des (d + 1) (by omega) hD2
    have h2 : inp / b ≤ inp / (d + 1) := Nat.div_le_div_left (by omega) (by omega)
    rw [if_neg (by omega)]
    refine ⟨Nat.le_refl _, hbe, rfl, fun q h3 h4 => ?_⟩
    have : inp / q ≤ inp / b := Nat.div_le_div_left h3 hb
    unfold freqError; simp only; omega
  · have e1 : Nat.max d b = d := Nat.max_eq_left h
    rw [e1]
    have h1 := div_ge inp des d (by omega) hD1
    rcases Nat.lt_or_ge d e with h' | h'
    · have e2 : Nat.min (d + 1) e = d + 1 := Nat.min_eq_left (by omega)
      rw [e2]
      have h2 := div_lt inp des (d + 1) (by omega) hD2
      have key : ∀ q, b ≤ q → inp / d ≤ inp / q ∨ inp / q ≤ inp / (d + 1) := by
        intro q hq
        rcases Nat.lt_or_ge d q with h3 | h3
        · right; exact Nat.div_le_div_left h3 (by omega)
        · left; exact Nat.div_le_div_left h3 (by omega)
      split
      · refine ⟨by simp only; omega, h', rfl, fun q h3 h4 => ?_⟩
        have := key q h3
        unfold freqError; simp only; omega
      · refine ⟨h, by simp only; omega, rfl, fun q h3 h4 => ?_⟩
        have := key q h3
        unfold freqError; simp only; omega
    · have e2 : Nat.min (d + 1) e = e := Nat.min_eq_right (by omega)
      rw [e2]
      have h2 : inp / d ≤ inp / e := Nat.div_le_div_left h' (by omega)
      rw [if_pos (by omega)]
      refine ⟨hbe, Nat.le_refl _, rfl, fun q h3 h4 => ?_⟩
      have : inp / e ≤ inp / q := Nat.div_le_div_left h4 (by omega)
      unfold freqError; simp only; omega

/-- the bound on the ratio in `C33_from_linear` is needed: at 2^32 - 1 the ceiling wraps to zero and is divided by -/
theorem C33_from_linear_wraps : fromLinear id (2 ^ 32 - 1) 1 1 8 = none := by decide +kernel

/-- comparison with `power * 4.0 / 3` -/
theorem cmp_pow {rnd : ℚ → ℚ} (hr : DoubleRounding rnd) {inp des : Nat} (hi0 : 0 < inp) (hi : inp ≤ 2 ^ 50)
    (hd0 : 0 < des) (hd : des ≤ 2 ^ 50) (p : Nat) (hp0 : 0 < p) (hp : p < 2 ^ 32) :
    ratio rnd inp des ≤ rnd (rnd (4 * p : Nat) / 3) ↔ 3 * inp ≤ 4 * p * des := by
  rw [ratio_eq hr hi0 hi hd0 hd, hr.nat (4 * p) (by omega)]
  have h2 : (0 : ℚ) < des := by exact_mod_cast hd0
  have hp1 : (1 : ℚ) ≤ p := by exact_mod_cast hp0
  constructor
  · intro h
    by_contra hc
    have h3 : ((4 * p * des + 1 : Nat) : ℚ) ≤ (3 * inp : Nat) := by exact_mod_cast (by omega : 4 * p * des + 1 ≤ 3 * inp)
    push_cast at h3
    have he := abs_lt.1 (ratio_err hr hi0 hi hd0 hd)
    have herr := abs_le.1 (hr.err (((4 * p : Nat) : ℚ) / 3) (by push_cast; rw [div_le_div_iff₀ (by positivity) (by norm_num)]; norm_num; nlinarith))
    push_cast at herr h
    have hgap : 4 * (p : ℚ) / 3 + 1 / (3 * des) ≤ (inp : ℚ) / des := by
      rw [← sub_nonneg]
      have : (inp : ℚ) / des - (4 * p / 3 + 1 / (3 * des)) = (3 * inp - (4 * p * des + 1)) / (3 * des) := by field_simp
      rw [this]; apply div_nonneg <;> linarith
    have hsmall : 4 * (p : ℚ) / 3 / 2 ^ 53 ≤ 1 / (6 * des) := by
      have hpd : 4 * (p : ℚ) * des ≤ 3 * 2 ^ 50 := by
        have : (inp : ℚ) ≤ 2 ^ 50 := by exact_mod_cast hi
        linarith
      rw [div_div, div_le_div_iff₀ (by positivity) (by positivity)]
      nlinarith
    have hsum : (1 : ℚ) / (6 * des) + 1 / (6 * des) = 1 / (3 * des) := by field_simp; norm_num
    linarith [he.1, herr.2]
  · intro h
    apply hr.mono
    rw [div_le_div_iff₀ h2 (by norm_num)]
    have : ((3 * inp : Nat) : ℚ) ≤ (4 * p * des : Nat) := by exact_mod_cast h
    push_cast at this ⊢; linarith

/-- error of the exact generated frequency -/
def exactError (inp des p : Nat) : ℚ := |(inp : ℚ) / p - des|

theorem powLoop_spec {rnd : ℚ → ℚ} (hr : DoubleRounding rnd) {inp des : Nat} (hi0 : 0 < inp) (hi : inp ≤ 2 ^ 50)
    (hd0 : 0 < des) (hd : des ≤ 2 ^ 50) (b m : Nat) (hb : 0 < b) (he : b * 2 ^ m < 2 ^ 32) (fuel i : Nat) (him : i ≤ m)
    (hf : m ≤ i + fuel) (hprev : ∀ j, j < i → 4 * (b * 2 ^ j) * des < 3 * inp) :
    ∃ k, powLoop rnd (ratio rnd inp des) (b * 2 ^ m) fuel (b * 2 ^ i) i = ⟨k, b * 2 ^ k⟩ ∧ k ≤ m ∧
      (∀ j, j < k → 4 * (b * 2 ^ j) * des < 3 * inp) ∧ (k < m → 3 * inp ≤ 4 * (b * 2 ^ k) * des) := by
  induction fuel generalizing i with
  | zero => exact ⟨i, rfl, him, hprev, fun h => by omega⟩
  | succ fuel ih =>
    unfold powLoop
    by_cases hlt : i < m
    · have hpw : b * 2 ^ i * 2 ≤ b * 2 ^ m := by
        rw [Nat.mul_assoc, ← Nat.pow_succ]; exact Nat.mul_le_mul_left _ (Nat.pow_le_pow_right (by decide) hlt)
      have hpos : 0 < b * 2 ^ i := by positivity
      rw [if_pos (by omega)]
      by_cases hc : 3 * inp ≤ 4 * (b * 2 ^ i) * des
      · rw [if_pos ((cmp_pow hr hi0 hi hd0 hd _ hpos (by omega)).2 hc)]
        exact ⟨i, rfl, him, hprev, fun _ => hc⟩
      · rw [if_neg (fun h => hc ((cmp_pow hr hi0 hi hd0 hd _ hpos (by omega)).1 h)),
          Nat.mod_eq_of_lt (by omega), Nat.mul_assoc, ← Nat.pow_succ]
        apply ih (i + 1) hlt (by omega)
        intro j hj
        rcases Nat.lt_or_ge j i with h | h
        · exact hprev j h
        · have : j = i := by omega
          subst this; omega
    · have : i = m := by omega
      subst this
      rw [if_neg (by omega)]
      exact ⟨i, rfl, Nat.le_refl _, hprev, fun h => by omega⟩

/-- C33: `from_power` returns a power-of-two multiple of `begin` (at its index) whose exact frequency is closest to the
desired one. -/
theorem C33_from_power {rnd : ℚ → ℚ} (hr : DoubleRounding rnd) (inp des b m : Nat) (hi0 : 0 < inp) (hi : inp ≤ 2 ^ 50)
    (hd0 : 0 < des) (hd : des ≤ 2 ^ 50) (hb : 0 < b) (he : b * 2 ^ m < 2 ^ 32) :
    ∃ k, fromPower rnd inp des b (b * 2 ^ m) = ⟨k, b * 2 ^ k⟩ ∧ k ≤ m ∧
      ∀ j, j ≤ m → exactError inp des (b * 2 ^ k) ≤ exactError inp des (b * 2 ^ j) := by
  have hm : m ≤ 32 := by
    by_contra hc
    have : 2 ^ 32 ≤ b * 2 ^ m := le_trans (Nat.pow_le_pow_right (by decide) (by omega)) (Nat.le_mul_of_pos_left _ hb)
    omega
  obtain ⟨k, h1, h2, h3, h4⟩ := powLoop_spec hr hi0 hi hd0 hd b m hb he 32 0 (Nat.zero_le _) (by omega) (by omega)
  refine ⟨k, by simpa [fromPower] using h1, h2, ?_⟩
  have hbq : (0 : ℚ) < b := by exact_mod_cast hb
  have hiq : (0 : ℚ) < inp := by exact_mod_cast hi0
  intro j hj
  unfold exactError
  push_cast
  -- frequencies
  have hfreq : ∀ a c : Nat, a ≤ c → (inp : ℚ) / (b * 2 ^ c) ≤ (inp : ℚ) / (b * 2 ^ a) := by
    intro a c hac
    apply div_le_div_of_nonneg_left hiq.le (by positivity)
    exact mul_le_mul_of_nonneg_left (pow_le_pow_right₀ (by norm_num) hac) hbq.le
  rcases Nat.lt_trichotomy j k with h | h | h
  · -- j < k: lower power, higher frequency
    have hp := h3 (k - 1) (by omega)
    have hle := hfreq j (k - 1) (by omega)
    have hkk : (inp : ℚ) / (b * 2 ^ (k - 1)) = 2 * ((inp : ℚ) / (b * 2 ^ k)) := by
      obtain ⟨k', rfl⟩ : ∃ k', k = k' + 1 := ⟨k - 1, by omega⟩
      rw [Nat.add_sub_cancel, pow_succ]; field_simp
    have hmid : (des : ℚ) < 3 / 2 * ((inp : ℚ) / (b * 2 ^ k)) := by
      have hq : ((4 * (b * 2 ^ (k - 1)) * des : Nat) : ℚ) < (3 * inp : Nat) := by exact_mod_cast hp
      push_cast at hq
      have : (des : ℚ) < 3 / 4 * ((inp : ℚ) / (b * 2 ^ (k - 1))) := by
        rw [← mul_div_assoc, lt_div_iff₀ (by positivity)]; linarith
      rw [hkk] at this; linarith
    generalize (inp : ℚ) / (b * 2 ^ k) = F at *
    generalize (inp : ℚ) / (b * 2 ^ j) = G at *
    rw [hkk] at hle
    have hF : 0 < F := by have : (0 : ℚ) ≤ des := by positivity
                          linarith
    rw [abs_le]
    have : G - des ≤ |G - des| := le_abs_self _
    constructor <;> linarith
  · subst h; exact le_refl _
  · have hp := h4 (by omega)
    have hle := hfreq (k + 1) j (by omega)
    have hkk : (inp : ℚ) / (b * 2 ^ (k + 1)) = ((inp : ℚ) / (b * 2 ^ k)) / 2 := by rw [pow_succ]; field_simp
    have hmid : 3 / 4 * ((inp : ℚ) / (b * 2 ^ k)) ≤ des := by
      have hq : ((3 * inp : Nat) : ℚ) ≤ (4 * (b * 2 ^ k) * des : Nat) := by exact_mod_cast hp
      push_cast at hq
      rw [← mul_div_assoc, div_le_iff₀ (by positivity)]; linarith
    have hF : 0 < (inp : ℚ) / (b * 2 ^ k) := by positivity
    generalize (inp : ℚ) / (b * 2 ^ k) = F at *
    generalize (inp : ℚ) / (b * 2 ^ j) = G at *
    rw [hkk] at hle
    rw [abs_le]
    have : -(G - des) ≤ |G - des| := neg_le_abs _
    constructor <;> linarith

-- 84 MHz to 5 MHz: list of typical SPI prescalers
example : Optimal 84000000 5000000 [2, 4, 8, 16, 32, 64, 128, 256] ⟨3, 16⟩ := by
  refine ⟨rfl, ?_⟩; decide


-- the theorems apply: exact arithmetic is an admissible rounding
example : ∃ r, fromRange id 84000000 5000000 [2, 4, 8, 16, 32, 64, 128, 256] = some r ∧
    Optimal 84000000 5000000 [2, 4, 8, 16, 32, 64, 128, 256] r :=
  C33_from_range rounding_id _ _ (by norm_num) (by norm_num) (by norm_num) (by norm_num) _ (by simp) (by decide) (by decide)
    (by decide)
example : fromLinear id 1000 300 1 10 = some ⟨2, 3⟩ := by
  decide +kernel
example : fromPower id 1000 300 1 (1 * 2 ^ 3) = ⟨2, 4⟩ := by
  decide +kernel

/-! ### Prescaler and counter -/

/-- specification: distance of the divider `p * c` from the desired ratio -/
def dividerError (desired : ℚ) (p c : Nat) : ℚ := |desired - ((p * c : Nat) : ℚ)|

theorem fnCompare_spec (desired : ℚ) (best : Best) (idx p c : Nat) (h : p * c < 2 ^ 32) :
    ∃ e, (fnCompare desired best idx p c).1 = some e ∧ e ≤ dividerError desired p c ∧
      (∀ e0, best.1 = some e0 → e ≤ e0) ∧
      (fnCompare desired best idx p c = best ∨
        fnCompare desired best idx p c = (some (dividerError desired p c), ⟨idx, p, c⟩)) := by
  unfold fnCompare
  rw [Nat.mod_eq_of_lt h]
  simp only
  rcases hb : best.1 with _ | e0
  · exact ⟨_, rfl, le_refl _, by simp, Or.inr rfl⟩
  · simp only
    split
    · rename_i hlt
      exact ⟨_, rfl, le_refl _, fun e1 h1 => by simp at h1; subst h1; exact hlt.le, Or.inr rfl⟩
    · rename_i hlt
      exact ⟨e0, hb, not_lt.1 hlt, fun e1 h1 => by simp at h1; subst h1; exact le_refl _, Or.inl rfl⟩

/-- invariant of the candidate loop after the prescalers `pre` of the list `l` -/
def CInv (desired : ℚ) (maxC : Nat) (l pre : List Nat) (best : Best) : Prop :=
  (best.1 = none ∧ ∀ q ∈ pre, ((q * maxC : Nat) : ℚ) < desired) ∨
  (best.1 = some (dividerError desired best.2.prescaler best.2.counter) ∧ l[best.2.index]? = some best.2.prescaler ∧
    1 ≤ best.2.counter ∧ best.2.counter ≤ maxC ∧
    ∀ q ∈ pre, desired ≤ ((q * maxC : Nat) : ℚ) → ∀ c, 1 ≤ c → c ≤ maxC →
      dividerError desired best.2.prescaler best.2.counter ≤ dividerError desired q c)

theorem closest (desired : ℚ) (hd : 0 ≤ desired) (p maxC c : Nat) (hp : 0 < p) (hc : 1 ≤ c) (hcm : c ≤ maxC) :
    let cnt := Nat.max 1 (⌊desired / p⌋).toNat
    dividerError desired p cnt ≤ dividerError desired p c ∨
      (cnt + 1 ≤ maxC ∧ dividerError desired p (cnt + 1) ≤ dividerError desired p c) := by
  intro cnt
  have hpq : (0 : ℚ) < p := by exact_mod_cast hp
  have hfl : ((⌊desired / p⌋).toNat : ℤ) = ⌊desired / p⌋ := Int.toNat_of_nonneg (Int.floor_nonneg.2 (by positivity))
  have hlo : ((p * (⌊desired / p⌋).toNat : Nat) : ℚ) ≤ desired := by
    have := Int.floor_le (desired / p)
    rw [← hfl, le_div_iff₀ hpq] at this
    push_cast at this ⊢; linarith
  have hhi : desired < ((p * ((⌊desired / p⌋).toNat + 1) : Nat) : ℚ) := by
    have := Int.lt_floor_add_one (desired / p)
    rw [← hfl, div_lt_iff₀ hpq] at this
    push_cast at this ⊢; linarith
  have hcnt : cnt = 1 ∨ cnt = (⌊desired / p⌋).toNat := by
    have : cnt = max 1 (⌊desired / p⌋).toNat := rfl
    omega
  have hcge : (⌊desired / p⌋).toNat ≤ cnt := Nat.le_max_right _ _
  have hc1 : 1 ≤ cnt := Nat.le_max_left _ _
  unfold dividerError
  rcases Nat.lt_trichotomy c cnt with h | h | h
  · left
    have hcn : cnt = (⌊desired / p⌋).toNat := by omega
    rw [← hcn] at hlo
    have : ((p * c : Nat) : ℚ) ≤ (p * cnt : Nat) := by exact_mod_cast Nat.mul_le_mul_left p h.le
    rw [abs_of_nonneg (by linarith), abs_of_nonneg (by linarith)]; linarith
  · left; rw [h]
  · right
    refine ⟨by omega, ?_⟩
    have h1 : ((p * ((⌊desired / p⌋).toNat + 1) : Nat) : ℚ) ≤ (p * (cnt + 1) : Nat) := by
      exact_mod_cast Nat.mul_le_mul_left p (by omega)
    have h2 : ((p * (cnt + 1) : Nat) : ℚ) ≤ (p * c : Nat) := by exact_mod_cast Nat.mul_le_mul_left p h
    rw [abs_of_nonpos (by linarith), abs_of_nonpos (by linarith)]; linarith

theorem candidates_spec (desired : ℚ) (hd : 0 ≤ desired) (maxC : Nat) (hm : 1 ≤ maxC) (l post pre : List Nat) (best : Best)
    (hl : l = pre ++ post) (hpos : ∀ p ∈ l, 0 < p) (hov : ∀ p ∈ l, p * maxC < 2 ^ 32)
    (hinv : CInv desired maxC l pre best) : CInv desired maxC l l (candidates desired maxC post pre.length best) := by
  induction post generalizing pre best with
  | nil => unfold candidates; simpa [hl] using hinv
  | cons p ps ih =>
    have hpl : p ∈ l := by rw [hl]; simp
    have hp := hpos p hpl
    have hpo := hov p hpl
    have hidx : l[pre.length]? = some p := by rw [hl]; simp
    have next : ∀ b, CInv desired maxC l (pre ++ [p]) b → CInv desired maxC l l (candidates desired maxC ps (pre.length + 1) b) := by
      intro b hb
      have := ih (pre ++ [p]) b (by simp [hl]) hb
      simpa using this
    unfold candidates
    rw [Nat.mul_comm maxC p, Nat.mod_eq_of_lt hpo]
    by_cases hskip : ((p * maxC : Nat) : ℚ) < desired
    · rw [if_pos hskip]
      apply next
      rcases hinv with ⟨h1, h2⟩ | ⟨h1, h2, h3, h4, h5⟩
      · refine Or.inl ⟨h1, fun q hq => ?_⟩
        rcases List.mem_append.1 hq with h | h
        · exact h2 q h
        · rw [List.mem_singleton.1 h]; exact hskip
      · refine Or.inr ⟨h1, h2, h3, h4, fun q hq hge => ?_⟩
        rcases List.mem_append.1 hq with h | h
        · exact h5 q h hge
        · rw [List.mem_singleton.1 h] at hge; exact absurd hge (not_le.2 hskip)
    · rw [if_neg hskip]
      simp only
      apply next
      -- properties of the first candidate
      have hclose := closest desired hd p maxC
      simp only at hclose
      have hcm : Nat.max 1 (⌊desired / p⌋).toNat ≤ maxC := by
        apply Nat.max_le.2 ⟨hm, ?_⟩
        have hpq : (0 : ℚ) < p := by exact_mod_cast hp
        have : ⌊desired / p⌋ ≤ (maxC : ℤ) := by
          have h := Int.floor_le (desired / p)
          have h2 : desired / p ≤ maxC := by
            rw [div_le_iff₀ hpq]; have := not_lt.1 hskip; push_cast at this; linarith
          exact_mod_cast le_trans h h2
        omega
      have hc1 : 1 ≤ Nat.max 1 (⌊desired / p⌋).toNat := Nat.le_max_left _ _
      generalize Nat.max 1 (⌊desired / p⌋).toNat = cnt at *
      obtain ⟨e1, a1, a2, a3, a4⟩ := fnCompare_spec desired best pre.length p cnt
        (lt_of_le_of_lt (Nat.mul_le_mul_left p hcm) hpo)
      -- valid: error recorded matches, index ok
      have good1 : (fnCompare desired best pre.length p cnt).1 = some (dividerError desired
            (fnCompare desired best pre.length p cnt).2.prescaler (fnCompare desired best pre.length p cnt).2.counter) ∧
          l[(fnCompare desired best pre.length p cnt).2.index]? = some (fnCompare desired best pre.length p cnt).2.prescaler ∧
          1 ≤ (fnCompare desired best pre.length p cnt).2.counter ∧ (fnCompare desired best pre.length p cnt).2.counter ≤ maxC := by
        rcases a4 with h | h
        · rcases hinv with ⟨h1, _⟩ | ⟨h1, h2, h3, h4, _⟩
          · rw [h, h1] at a1; cases a1
          · rw [h]; exact ⟨h1, h2, h3, h4⟩
        · rw [h]; exact ⟨rfl, hidx, hc1, hcm⟩
      have old1 : ∀ q ∈ pre, desired ≤ ((q * maxC : Nat) : ℚ) → ∀ c, 1 ≤ c → c ≤ maxC → e1 ≤ dividerError desired q c := by
        intro q hq hge c hc hc'
        rcases hinv with ⟨_, h2⟩ | ⟨h1, _, _, _, h5⟩
        · exact absurd hge (not_le.2 (h2 q hq))
        · exact le_trans (a3 _ h1) (h5 q hq hge c hc hc')
      by_cases hcm1 : cnt > maxC - 1
      · rw [if_pos hcm1]
        refine Or.inr ⟨good1.1, good1.2.1, good1.2.2.1, good1.2.2.2, ?_⟩
        have he : e1 = dividerError desired (fnCompare desired best pre.length p cnt).2.prescaler
            (fnCompare desired best pre.length p cnt).2.counter := by
          rw [good1.1] at a1; exact (Option.some.inj a1).symm
        rw [← he]
        intro q hq hge c hc hc'
        rcases List.mem_append.1 hq with h | h
        · exact old1 q h hge c hc hc'
        · rw [List.mem_singleton.1 h]
          rcases hclose c hp hc hc' with h | ⟨h, _⟩
          · exact le_trans a2 h
          · omega
      · rw [if_neg hcm1]
        obtain ⟨e2, b1, b2, b3, b4⟩ := fnCompare_spec desired (fnCompare desired best pre.length p cnt) pre.length p (cnt + 1)
          (lt_of_le_of_lt (Nat.mul_le_mul_left p (by omega)) hpo)
        have he21 : e2 ≤ e1 := b3 _ a1
        generalize hB : fnCompare desired best pre.length p cnt = B at *
        have good2 : (fnCompare desired B pre.length p (cnt + 1)).1 = some (dividerError desired
              (fnCompare desired B pre.length p (cnt + 1)).2.prescaler (fnCompare desired B pre.length p (cnt + 1)).2.counter) ∧
            l[(fnCompare desired B pre.length p (cnt + 1)).2.index]? = some (fnCompare desired B pre.length p (cnt + 1)).2.prescaler ∧
            1 ≤ (fnCompare desired B pre.length p (cnt + 1)).2.counter ∧ (fnCompare desired B pre.length p (cnt + 1)).2.counter ≤ maxC := by
          rcases b4 with h | h
          · rw [h]; exact good1
          · rw [h]; exact ⟨rfl, hidx, Nat.le_add_left _ _, by simp only; omega⟩
        refine Or.inr ⟨good2.1, good2.2.1, good2.2.2.1, good2.2.2.2, ?_⟩
        have he : e2 = dividerError desired (fnCompare desired B pre.length p (cnt + 1)).2.prescaler
            (fnCompare desired B pre.length p (cnt + 1)).2.counter := by
          rw [good2.1] at b1; exact (Option.some.inj b1).symm
        rw [← he]
        intro q hq hge c hc hc'
        rcases List.mem_append.1 hq with h | h
        · exact le_trans he21 (old1 q h hge c hc hc')
        · rw [List.mem_singleton.1 h]
          rcases hclose c hp hc hc' with h | ⟨_, h⟩
          · exact le_trans he21 (le_trans a2 h)
          · exact le_trans b2 h

/-- C34, the part that holds. For every non-empty list of positive prescalers and counter limit with
`max * max_counter < 2^32` the result is a pair in range, and its divider is closest to the desired ratio among all pairs
whose prescaler can reach the ratio (`desired ≤ p * max_counter`); among all pairs when the ratio is outside the range of
the dividers. Missing: pairs whose prescaler cannot reach the ratio (see `C34_skipped_prescaler_counterexample`) and
products beyond 32 bits (see `C34_overflow_counterexample`). -/
theorem C34_counter_partial (inp des maxC : Nat) (hm : 1 ≤ maxC) (l : List Nat) (hl : l ≠ [])
    (hpos : ∀ p ∈ l, 0 < p) (hov : ∀ p ∈ l, p * maxC < 2 ^ 32) :
    ∃ r, counterFromRange inp des maxC l = some r ∧ l[r.index]? = some r.prescaler ∧ 1 ≤ r.counter ∧ r.counter ≤ maxC ∧
      ∀ q ∈ l, ((inp : ℚ) / des ≤ ((q * maxC : Nat) : ℚ) ∨ ∀ p ∈ l, ((p * maxC : Nat) : ℚ) < (inp : ℚ) / des) →
        ∀ c, 1 ≤ c → c ≤ maxC →
          dividerError ((inp : ℚ) / des) r.prescaler r.counter ≤ dividerError ((inp : ℚ) / des) q c := by
  have hd : (0 : ℚ) ≤ (inp : ℚ) / des := by positivity
  obtain ⟨mn, hmn⟩ : ∃ mn, l.min? = some mn := by
    cases h : l.min? with
    | none => exact absurd (List.min?_eq_none_iff.1 h) hl
    | some a => exact ⟨a, rfl⟩
  obtain ⟨mx, hmx⟩ : ∃ mx, l.max? = some mx := by
    cases h : l.max? with
    | none => exact absurd (List.max?_eq_none_iff.1 h) hl
    | some a => exact ⟨a, rfl⟩
  have hmn' := List.min?_eq_some_iff.1 hmn
  have hmx' := List.max?_eq_some_iff.1 hmx
  unfold counterFromRange
  rw [hmn, hmx]
  simp only [Option.bind_eq_bind, Option.bind_some, Nat.mod_eq_of_lt (hov mx hmx'.1)]
  have idxOf_get : ∀ a ∈ l, l[minIdx l a]? = some a := by
    intro a ha
    unfold minIdx
    rw [List.getElem?_eq_some_iff]
    exact ⟨List.idxOf_lt_length_of_mem ha, List.getElem_idxOf _⟩
  split
  · rename_i hlt
    refine ⟨_, rfl, idxOf_get mn hmn'.1, Nat.le_refl _, hm, fun q hq _ c hc _ => ?_⟩
    have h1 : ((mn * 1 : Nat) : ℚ) ≤ (q * c : Nat) := by exact_mod_cast Nat.mul_le_mul (hmn'.2 q hq) hc
    unfold dividerError
    have h2 : (inp : ℚ) / des < ((mn * 1 : Nat) : ℚ) := by rw [Nat.mul_one]; exact hlt
    simp only
    rw [abs_of_nonpos (by linarith), abs_of_nonpos (by linarith)]; linarith
  · split
    · rename_i hgt
      refine ⟨_, rfl, idxOf_get mx hmx'.1, hm, Nat.le_refl _, fun q hq _ c _ hc => ?_⟩
      have h1 : ((q * c : Nat) : ℚ) ≤ (mx * maxC : Nat) := by exact_mod_cast Nat.mul_le_mul (hmx'.2 q hq) hc
      unfold dividerError
      simp only
      rw [abs_of_nonneg (by linarith), abs_of_nonneg (by linarith)]; linarith
    · rename_i hgt
      have := candidates_spec ((inp : ℚ) / des) hd maxC hm l l [] (none, ⟨0, 0, 0⟩) rfl hpos hov
        (Or.inl ⟨rfl, by simp⟩)
      simp only [List.length_nil] at this
      rcases this with ⟨_, h2⟩ | ⟨_, h2, h3, h4, h5⟩
      · exact absurd (h2 mx hmx'.1) (by linarith)
      · refine ⟨_, rfl, h2, h3, h4, fun q hq hor c hc hc' => ?_⟩
        rcases hor with h | h
        · exact h5 q hq h c hc hc'
        · exact absurd (h mx hmx'.1) hgt

-- non-trivial case: 10 MHz to 3 kHz with prescalers 1, 8, 64 and an 8 bit counter: 64 * 52 = 3328 is closest to 3333.3
example : counterFromRange 10000000 3000 255 [1, 8, 64] = some ⟨2, 64, 52⟩ := by
  decide +kernel

/-- C34 fails: a prescaler that cannot reach the ratio is skipped although its largest divider is the closest one. Ratio
100.4, prescalers 10 and 11, counter up to 10: `10 * 10 = 100` misses by 0.4, but the result is `11 * 9 = 99`. -/
theorem C34_skipped_prescaler_counterexample :
    counterFromRange 1004 10 10 [10, 11] = some ⟨1, 11, 9⟩ ∧
      dividerError (1004 / 10) 10 10 < dividerError (1004 / 10) 11 9 := by
  constructor
  · decide +kernel
  · norm_num [dividerError]

/-- C34 fails: `max * max_counter` overflows 32 bits. Prescalers 1 and 65536 with a 16 bit counter limit of 65536: a
ratio of 10 is answered with `65536 * 65536`. -/
theorem C34_overflow_counterexample :
    counterFromRange 10 1 65536 [1, 65536] = some ⟨1, 65536, 65536⟩ := by
  norm_num [counterFromRange, List.min?, List.max?, minIdx]

end Props
