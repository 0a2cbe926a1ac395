import Verif.Model.Color
import Verif.Spec.Color
import Mathlib.Tactic.IntervalCases
import Mathlib.Tactic.Ring

set_option autoImplicit false

/-! Properties C78 and C79: colours. -/

namespace Props.Color

open Modm.Color Spec.Color

/-! ### C78: 16 bit colours -/

theorem and_f8 (x : Nat) (h : x < 256) : x &&& 0xF8 = x / 8 * 8 :=
  (by decide +kernel : ∀ x : Fin 256, x.val &&& 0xF8 = x.val / 8 * 8) ⟨x, h⟩

theorem and_fc (x : Nat) : x &&& 0xFC = x / 4 % 64 * 4 := by
  have h1 : x &&& 0xFC ≤ 0xFC := Nat.and_le_right
  have h2 : (x &&& 0xFC) % 2 ^ 8 = x % 2 ^ 8 &&& 0xFC % 2 ^ 8 := Nat.and_mod_two_pow
  have h3 : x % 256 &&& 0xFC = x % 256 / 4 % 64 * 4 :=
    (by decide +kernel : ∀ x : Fin 256, x.val &&& 0xFC = x.val / 4 % 64 * 4) ⟨x % 256, by omega⟩
  rw [show 0xFC % 2 ^ 8 = 0xFC from rfl, show 2 ^ 8 = 256 from rfl, h3] at h2
  omega

theorem and_3f (x : Nat) : x &&& 0x3F = x % 64 := Nat.and_two_pow_sub_one_eq_mod x 6

theorem and_1f (x : Nat) : x &&& 0x1F = x % 32 := Nat.and_two_pow_sub_one_eq_mod x 5

/-- Three components in a word. -/
theorem pack (r g b : Nat) (hg : g < 64) (hb : b < 32) :
    r <<< 11 ||| g <<< 5 ||| b = r * 2048 + g * 32 + b := by
  have h1 : g <<< 5 ||| b = 2 ^ 5 * g + b := by
    rw [Nat.two_pow_add_eq_or_of_lt hb, Nat.shiftLeft_eq, Nat.mul_comm]
  have h2 : r <<< 11 ||| (2 ^ 5 * g + b) = 2 ^ 11 * r + (2 ^ 5 * g + b) := by
    rw [Nat.two_pow_add_eq_or_of_lt (show 2 ^ 5 * g + b < 2 ^ 11 by omega) r, Nat.shiftLeft_eq, Nat.mul_comm r]
  rw [Nat.or_assoc, h1, h2]
  omega

theorem make565_eq (r g b : Nat) (hr : r < 256) (hg : g < 256) (hb : b < 256) :
    make565 r g b = r / 8 * 2048 + g / 4 * 32 + b / 8 := by
  unfold make565
  rw [and_f8 r hr, and_fc g]
  have e1 : (r / 8 * 8) <<< 8 = (r / 8) <<< 11 := by simp only [Nat.shiftLeft_eq]; omega
  have e2 : (g / 4 % 64 * 4) <<< 3 = (g / 4) <<< 5 := by simp only [Nat.shiftLeft_eq]; omega
  have e3 : b >>> 3 = b / 8 := by rw [Nat.shiftRight_eq_div_pow]
  rw [e1, e2, e3, pack _ _ _ (by omega) (by omega)]
  omega

/-- C78: a colour made of three bytes holds the upper 5, 6 and 5 bits of them. -/
theorem C78_components (r g b : Nat) (hr : r < 256) (hg : g < 256) (hb : b < 256) :
    make565 r g b < 65536 ∧ red5 (make565 r g b) = r / 8 ∧ green6 (make565 r g b) = g / 4 ∧
      blue5 (make565 r g b) = b / 8 := by
  rw [make565_eq r g b hr hg hb, red5, green6, blue5]
  omega

theorem of565_eq (c : Nat) (hc : c < 65536) :
    of565 8 c = ⟨red5 c * 8, green6 c * 4, blue5 c * 8⟩ := by
  unfold of565 red5 green6 blue5
  rw [Nat.shiftRight_eq_div_pow, Nat.shiftRight_eq_div_pow, and_f8 _ (by omega), and_fc,
    Nat.shiftLeft_eq]
  simp only [Rgb.mk.injEq]
  omega

/-- C78: expanding a 16 bit colour gives its components at the top of the bytes, and packing these again
gives the same colour. -/
theorem C78_round_trip (c : Nat) (hc : c < 65536) :
    of565 8 c = ⟨red5 c * 8, green6 c * 4, blue5 c * 8⟩ ∧ to565 (of565 8 c) = c := by
  refine ⟨of565_eq c hc, ?_⟩
  rw [of565_eq c hc]
  unfold to565 red5 green6 blue5
  simp only
  rw [make565_eq _ _ _ (by omega) (by omega) (by omega)]
  omega

/-- C78: packing and expanding loses at most the low 3, 2 and 3 bits. -/
theorem C78_loss (x : Rgb) (hr : x.red < 256) (hg : x.green < 256) (hb : x.blue < 256) :
    of565 8 (to565 x) = ⟨x.red / 8 * 8, x.green / 4 * 4, x.blue / 8 * 8⟩ := by
  obtain ⟨h1, h2, h3, h4⟩ := C78_components x.red x.green x.blue hr hg hb
  have e : to565 x = make565 x.red x.green x.blue := by
    rw [to565, Nat.mod_eq_of_lt hr, Nat.mod_eq_of_lt hg, Nat.mod_eq_of_lt hb]
  rw [e, of565_eq _ h1, h2, h3, h4]

theorem clamp_int8 (x hi : Int) (h1 : -128 ≤ x) (h2 : x < 128) (h3 : 0 ≤ hi) :
    (clamp (int8 x) hi : Int) = min (max x 0) hi := by
  have : int8 x = x := by unfold int8; omega
  rw [this, clamp]
  split
  · omega
  · split <;> omega

/-- C78: the sum saturates in every component. -/
theorem C78_add (c d : Nat) (hc : c < 65536) (hd : d < 65536) :
    add565 c d < 65536 ∧ red5 (add565 c d) = min (red5 c + red5 d) 31 ∧
      green6 (add565 c d) = min (green6 c + green6 d) 63 ∧
      blue5 (add565 c d) = min (blue5 c + blue5 d) 31 := by
  have hr := clamp_int8 ((c / 2048 : Nat) + (d / 2048 : Nat)) 31 (by omega) (by omega) (by omega)
  have hg := clamp_int8 ((c / 32 % 64 : Nat) + (d / 32 % 64 : Nat)) 63 (by omega) (by omega) (by omega)
  have hb := clamp_int8 ((c % 32 : Nat) + (d % 32 : Nat)) 31 (by omega) (by omega) (by omega)
  have e : add565 c d = clamp (int8 ((c / 2048 : Nat) + (d / 2048 : Nat))) 31 * 2048 +
      clamp (int8 ((c / 32 % 64 : Nat) + (d / 32 % 64 : Nat))) 63 * 32 +
      clamp (int8 ((c % 32 : Nat) + (d % 32 : Nat))) 31 := by
    unfold add565
    simp only [and_3f, and_1f, Nat.shiftRight_eq_div_pow, Nat.reducePow]
    exact pack _ _ _ (by omega) (by omega)
  rw [e, red5, green6, blue5, red5, green6, blue5, red5, green6, blue5]
  generalize clamp (int8 ((c / 2048 : Nat) + (d / 2048 : Nat))) 31 = x at *
  generalize clamp (int8 ((c / 32 % 64 : Nat) + (d / 32 % 64 : Nat))) 63 = y at *
  generalize clamp (int8 ((c % 32 : Nat) + (d % 32 : Nat))) 31 = z at *
  omega

/-- C78: the difference stops at zero in every component. -/
theorem C78_sub (c d : Nat) (hc : c < 65536) (hd : d < 65536) :
    sub565 c d < 65536 ∧ red5 (sub565 c d) = red5 c - red5 d ∧
      green6 (sub565 c d) = green6 c - green6 d ∧ blue5 (sub565 c d) = blue5 c - blue5 d := by
  have hr := clamp_int8 ((c / 2048 : Nat) - (d / 2048 : Nat)) 31 (by omega) (by omega) (by omega)
  have hg := clamp_int8 ((c / 32 % 64 : Nat) - (d / 32 % 64 : Nat)) 63 (by omega) (by omega) (by omega)
  have hb := clamp_int8 ((c % 32 : Nat) - (d % 32 : Nat)) 31 (by omega) (by omega) (by omega)
  have e : sub565 c d = clamp (int8 ((c / 2048 : Nat) - (d / 2048 : Nat))) 31 * 2048 +
      clamp (int8 ((c / 32 % 64 : Nat) - (d / 32 % 64 : Nat))) 63 * 32 +
      clamp (int8 ((c % 32 : Nat) - (d % 32 : Nat))) 31 := by
    unfold sub565
    simp only [and_3f, and_1f, Nat.shiftRight_eq_div_pow, Nat.reducePow]
    exact pack _ _ _ (by omega) (by omega)
  rw [e, red5, green6, blue5, red5, green6, blue5, red5, green6, blue5]
  generalize clamp (int8 ((c / 2048 : Nat) - (d / 2048 : Nat))) 31 = x at *
  generalize clamp (int8 ((c / 32 % 64 : Nat) - (d / 32 % 64 : Nat))) 63 = y at *
  generalize clamp (int8 ((c % 32 : Nat) - (d % 32 : Nat))) 31 = z at *
  omega

/-- C78: widening the components and narrowing them again changes nothing. -/
theorem C78_widen_narrow (x : Rgb) (hr : x.red < 256) (hg : x.green < 256) (hb : x.blue < 256) :
    narrow (widen x) = x := by
  obtain ⟨r, g, b⟩ := x
  simp only [narrow, widen, Nat.shiftLeft_eq, Nat.shiftRight_eq_div_pow, Rgb.mk.injEq] at *
  omega

example : make565 255 128 7 = 0xFC00 ∧ of565 8 0x8410 = ⟨0x80, 0x80, 0x80⟩ ∧
    add565 0x8410 0x8410 = 0xFFFF ∧ sub565 0x8410 0xFFE1 = 0x000F := by decide +kernel

/-- C78 is false for components of 16 bits: the low byte of each component is packed, and expanding leaves
the other bits of the colour in the blue component. -/
theorem C78_uint16_counterexample :
    to565 ⟨0x8000, 0x8000, 0x8000⟩ = 0 ∧ of565 16 0x8000 = ⟨0x80, 0, 0⟩ ∧
      of565 16 0x0020 = ⟨0, 4, 0x100⟩ := by decide +kernel

/-! ### C79: HSV -/

theorem div_sub (v s d : Nat) (hs : s ≤ 256) (hd : d ≤ 256) :
    v * (65536 - s * d) = v * 65536 - v * s * d ∧ v * s * d ≤ v * 65536 := by
  have h : s * d ≤ 65536 := by
    have := Nat.mul_le_mul hs hd
    omega
  refine ⟨by rw [Nat.mul_sub, Nat.mul_assoc], ?_⟩
  rw [Nat.mul_assoc]
  exact Nat.mul_le_mul_left v h

/-- One channel in terms of the distance. -/
theorem channel_eq (n hue s v d : Nat) (hs : s < 256) (hd : d ≤ 256)
    (h : min (min ((n * 256 + 6 * hue) % 1536) (1024 - (n * 256 + 6 * hue) % 1536)) 256 = d) :
    channel n hue s v = (v * 65536 - v * s * d) / 65536 := by
  unfold channel
  simp only [h]
  rw [(div_sub v s d (by omega) hd).1]

theorem fraction_even (i h6 : Nat) (hi : i % 2 = 0) (h1 : i * 256 ≤ h6) (h2 : h6 < i * 256 + 256)
    (h3 : i < 6) : fraction i h6 = i * 256 + 256 - h6 := by
  have e : i ||| 1 = i + 1 := by interval_cases i <;> first | rfl | omega
  unfold fraction
  rw [e, Nat.shiftLeft_eq, if_neg (by omega)]
  omega

theorem fraction_odd (i h6 : Nat) (hi : i % 2 = 1) (h1 : i * 256 ≤ h6) (h2 : h6 < i * 256 + 256)
    (h3 : i < 6) : fraction i h6 = h6 - i * 256 := by
  have e : i ||| 1 = i := by interval_cases i <;> first | rfl | omega
  unfold fraction
  rw [e, Nat.shiftLeft_eq, if_pos hi]
  omega

/-- C79: for bytes the conversion is the usual formula, rounded down, in all three components. -/
theorem C79_hsv (hue s v : Nat) (hh : hue < 256) (hs : s < 256) (hv : v < 256) :
    ofHsv 8 hue s v = some ⟨channel 5 hue s v, channel 3 hue s v, channel 1 hue s v⟩ := by
  have hvs : v * s ≤ 255 * 255 := Nat.mul_le_mul (by omega) (by omega)
  have hvs2 : v * s ≤ v * 255 := Nat.mul_le_mul_left v (by omega)
  obtain ⟨i, hi⟩ : ∃ i, i = 6 * hue / 256 := ⟨_, rfl⟩
  have hi6 : i < 6 := by omega
  obtain ⟨f, hf⟩ : ∃ f, f = fraction i (6 * hue) := ⟨_, rfl⟩
  have hfv : f = if i % 2 = 1 then 6 * hue - i * 256 else i * 256 + 256 - 6 * hue := by
    rw [hf]
    by_cases h : i % 2 = 1
    · rw [if_pos h, fraction_odd i _ h (by omega) (by omega) hi6]
    · rw [if_neg h, fraction_even i _ (by omega) (by omega) (by omega) hi6]
  have hf256 : f ≤ 256 := by rw [hfv]; split <;> omega
  have hfo : i % 2 = 1 → f = 6 * hue - i * 256 := fun h => by rw [hfv, if_pos h]
  have hfe : i % 2 = 0 → f = i * 256 + 256 - 6 * hue := fun h => by rw [hfv, if_neg (by omega)]
  clear hfv
  have hd := (div_sub v s f (by omega) hf256).2
  have hd2 := (div_sub v s 256 (by omega) (le_refl _)).2
  have hu : ofHsv 8 hue s v = some (sector i ((v * 65536 - v * s * 0) / 65536)
      ((v * 65536 - v * s * f) / 65536) ((v * 65536 - v * s * 256) / 65536)) := by
    unfold ofHsv
    rw [if_pos (by omega), Nat.mod_eq_of_lt (show v * s < 65536 by omega),
      Nat.mod_eq_of_lt (show 6 * hue < 65536 by omega)]
    have e1 : (6 * hue) >>> 8 % 2 ^ 8 = i := by
      rw [Nat.shiftRight_eq_div_pow]; omega
    simp only [e1, ← hf, Nat.shiftLeft_eq]
    generalize v * s * f = y at *
    generalize v * s = x at *
    refine congrArg some ?_
    congr 1
    · omega
    · omega
    · omega
  rw [hu]
  refine congrArg some ?_
  have c := fun n d hd h => channel_eq n hue s v d hs hd h
  interval_cases i
  all_goals simp only [sector, Rgb.mk.injEq]
  · refine ⟨(c 5 0 (by omega) (by omega)).symm, (c 3 f hf256 (by omega)).symm,
      (c 1 256 (by omega) (by omega)).symm⟩
  · refine ⟨(c 5 f hf256 (by omega)).symm, (c 3 0 (by omega) (by omega)).symm,
      (c 1 256 (by omega) (by omega)).symm⟩
  · refine ⟨(c 5 256 (by omega) (by omega)).symm, (c 3 0 (by omega) (by omega)).symm,
      (c 1 f hf256 (by omega)).symm⟩
  · refine ⟨(c 5 256 (by omega) (by omega)).symm, (c 3 f hf256 (by omega)).symm,
      (c 1 0 (by omega) (by omega)).symm⟩
  · refine ⟨(c 5 f hf256 (by omega)).symm, (c 3 256 (by omega) (by omega)).symm,
      (c 1 0 (by omega) (by omega)).symm⟩
  · refine ⟨(c 5 0 (by omega) (by omega)).symm, (c 3 256 (by omega) (by omega)).symm,
      (c 1 f hf256 (by omega)).symm⟩

/-- C79: the brightest component is the value, and without saturation the colour is grey. -/
theorem C79_value (hue s v : Nat) (hh : hue < 256) (hs : s < 256) (hv : v < 256) :
    ∃ c, ofHsv 8 hue s v = some c ∧ max c.red (max c.green c.blue) = v ∧
      min c.red (min c.green c.blue) = v * (256 - s) / 256 ∧
      (s = 0 → c = ⟨v, v, v⟩) := by
  refine ⟨_, C79_hsv hue s v hh hs hv, ?_⟩
  have c := fun n d hd h => channel_eq n hue s v d hs hd h
  have hp : v * (256 - s) / 256 = (v * 65536 - v * s * 256) / 65536 := by
    rw [Nat.mul_sub]
    generalize v * s = x
    omega
  have hm : ∀ d, d ≤ 256 → v * s * d ≤ v * s * 256 := fun d hd => Nat.mul_le_mul_left _ hd
  have key : ∀ n, ∃ d, d ≤ 256 ∧ channel n hue s v = (v * 65536 - v * s * d) / 65536 ∧
      min (min ((n * 256 + 6 * hue) % 1536) (1024 - (n * 256 + 6 * hue) % 1536)) 256 = d :=
    fun n => ⟨_, Nat.min_le_right _ _, c n _ (Nat.min_le_right _ _) rfl, rfl⟩
  obtain ⟨d5, h5, e5, f5⟩ := key 5
  obtain ⟨d3, h3, e3, f3⟩ := key 3
  obtain ⟨d1, h1, e1, f1⟩ := key 1
  have hz : d5 = 0 ∨ d3 = 0 ∨ d1 = 0 := by omega
  have hmx : d5 = 256 ∨ d3 = 256 ∨ d1 = 256 := by omega
  have m5 := hm d5 h5
  have m3 := hm d3 h3
  have m1 := hm d1 h1
  simp only [e5, e3, e1, hp, Rgb.mk.injEq]
  clear e5 e3 e1 c key hm f5 f3 f1 hp
  have z5 : d5 = 0 → v * s * d5 = 0 := fun h => by rw [h, Nat.mul_zero]
  have z3 : d3 = 0 → v * s * d3 = 0 := fun h => by rw [h, Nat.mul_zero]
  have z1 : d1 = 0 → v * s * d1 = 0 := fun h => by rw [h, Nat.mul_zero]
  have t5 : d5 = 256 → v * s * d5 = v * s * 256 := fun h => by rw [h]
  have t3 : d3 = 256 → v * s * d3 = v * s * 256 := fun h => by rw [h]
  have t1 : d1 = 256 → v * s * d1 = v * s * 256 := fun h => by rw [h]
  refine ⟨?_, ?_, ?_⟩
  · clear hmx t5 t3 t1
    generalize v * s * d5 = y5 at *
    generalize v * s * d3 = y3 at *
    generalize v * s * d1 = y1 at *
    omega
  · clear hz z5 z3 z1
    generalize v * s * d5 = y5 at *
    generalize v * s * d3 = y3 at *
    generalize v * s * d1 = y1 at *
    omega
  · intro h
    subst h
    have e : v * 65536 / 65536 = v := Nat.mul_div_cancel v (by norm_num)
    simp only [Nat.mul_zero, Nat.zero_mul, Nat.sub_zero, e, and_self]

example : ofHsv 8 0 255 255 = some ⟨255, 0, 0⟩ ∧ ofHsv 8 85 200 100 = some ⟨22, 100, 21⟩ := by decide +kernel

/-- C79 is false for components of 16 bits (as a comment in the code admits): grey can become black, a hue of half
a turn counts as none, and the product of value and saturation can overflow. -/
theorem C79_uint16_counterexample :
    ofHsv 16 1000 0 0x8000 = some ⟨0, 0, 0⟩ ∧ ofHsv 16 0x8000 0xff 0xff = ofHsv 16 0 0xff 0xff ∧
      ofHsv 16 0 0xffff 0xffff = none := by decide +kernel

end Props.Color
