import Verif.Model.Mono
import Verif.Spec.Mono
import Verif.Props.Display

set_option autoImplicit false

/-! Monochrome displays with a buffer and text: C88, C92, C95. -/

namespace Props.Mono

open Modm.Display
open Modm.Mono
open Spec.Display
open Spec.Mono

/-! ## Bits -/

theorem one_bit (s j : Nat) (hs : s < 8) (hj : j < 8) : (1#8 <<< s).getLsbD j = decide (j = s) := by
  have : ∀ s : Fin 8, ∀ j : Fin 8, (1#8 <<< s.val).getLsbD j.val = decide (j.val = s.val) := by decide
  exact this ⟨s, hs⟩ ⟨j, hj⟩

theorem test_bit (v : BitVec 8) (s : Nat) (hs : s < 8) : decide (v &&& (1#8 <<< s) ≠ 0#8) = v.getLsbD s := by
  have h1 := fun j hj => one_bit s j hs hj
  generalize 1#8 <<< s = m at *
  cases hv : v.getLsbD s with
  | true =>
    rw [decide_eq_true_iff]
    intro h
    have := congrArg (fun x => x.getLsbD s) h
    simp only [BitVec.getLsbD_and, hv, h1 s hs, BitVec.getLsbD_zero] at this
    simp at this
  | false =>
    rw [decide_eq_false_iff_not, not_not]
    apply BitVec.eq_of_getLsbD_eq
    intro i hi
    rw [BitVec.getLsbD_and, h1 i hi, BitVec.getLsbD_zero]
    by_cases his : i = s
    · rw [his, hv]
      rfl
    · simp [his]

theorem or_bit (v : BitVec 8) (s j : Nat) (hs : s < 8) (hj : j < 8) :
    (v ||| (1#8 <<< s)).getLsbD j = (decide (j = s) || v.getLsbD j) := by
  rw [BitVec.getLsbD_or, one_bit s j hs hj, Bool.or_comm]

theorem and_bit (v : BitVec 8) (s j : Nat) (hs : s < 8) (hj : j < 8) :
    (v &&& ~~~(1#8 <<< s)).getLsbD j = (!decide (j = s) && v.getLsbD j) := by
  rw [BitVec.getLsbD_and, BitVec.getLsbD_not, one_bit s j hs hj, Bool.and_comm]
  simp [hj]

/-! ## Pixels of the buffers -/

def bitV (b : Buf) (x y : Int) : Bool := (b (y.toNat / 8) x.toNat).getLsbD (y.toNat % 8)

def bitH (b : Buf) (x y : Int) : Bool := (b y.toNat (x.toNat / 8)).getLsbD (x.toNat % 8)

theorem cellV_of (W H : Nat) (h8 : H % 8 = 0) (x y : Int) (hx : 0 ≤ x) (hy : 0 ≤ y) (hxW : x < W) (hyH : y < H) :
    cellV W H x y = some (y.toNat / 8, x.toNat, y.toNat % 8) := by
  unfold cellV
  rw [Int.tdiv_eq_ediv_of_nonneg hy, Int.tmod_eq_emod_of_nonneg hy, if_pos (by omega)]
  simp only [Option.some.injEq, Prod.mk.injEq]
  exact ⟨by omega, trivial, by omega⟩

theorem cellH_of (W H : Nat) (h8 : W % 8 = 0) (x y : Int) (hx : 0 ≤ x) (hy : 0 ≤ y) (hxW : x < W) (hyH : y < H) :
    cellH W H x y = some (y.toNat, x.toNat / 8, x.toNat % 8) := by
  unfold cellH
  rw [Int.tdiv_eq_ediv_of_nonneg hx, Int.tmod_eq_emod_of_nonneg hx, if_pos (by omega)]
  simp only [Option.some.injEq, Prod.mk.injEq]
  exact ⟨trivial, by omega, by omega⟩

theorem getPixelV_of (W H : Nat) (h8 : H % 8 = 0) (b : Buf) (x y : Int) (hx : 0 ≤ x) (hy : 0 ≤ y) :
    getPixelV W H b x y = some (decide (x < W ∧ y < H) && bitV b x y) := by
  unfold getPixelV
  by_cases h : x < W ∧ y < H
  · rw [if_pos h, cellV_of W H h8 x y hx hy h.1 h.2, Option.map_some, decide_eq_true h]
    simp only
    rw [test_bit _ _ (by omega)]
    rfl
  · rw [if_neg h, decide_eq_false h]
    rfl

theorem getPixelH_of (W H : Nat) (h8 : W % 8 = 0) (b : Buf) (x y : Int) (hx : 0 ≤ x) (hy : 0 ≤ y) :
    getPixelH W H b x y = some (decide (x < W ∧ y < H) && bitH b x y) := by
  unfold getPixelH
  by_cases h : x < W ∧ y < H
  · rw [if_pos h, cellH_of W H h8 x y hx hy h.1 h.2, Option.map_some, decide_eq_true h]
    simp only
    rw [test_bit _ _ (by omega)]
    rfl
  · rw [if_neg h, decide_eq_false h]
    rfl

theorem shows_iff (W H : Nat) (get : Int → Int → Option Bool) (bit : Int → Int → Bool) (c : Canvas)
    (hg : ∀ x y, 0 ≤ x → 0 ≤ y → get x y = some (decide (x < W ∧ y < H) && bit x y)) :
    Shows W H get c ↔ ∀ x y : Int, 0 ≤ x → 0 ≤ y → x < W → y < H → bit x y = c x y := by
  unfold Shows clip
  constructor
  · intro h x y hx hy hxW hyH
    have := h x y hx hy
    rw [hg x y hx hy, decide_eq_true ⟨hxW, hyH⟩, decide_eq_true ⟨⟨hx, hxW⟩, ⟨hy, hyH⟩⟩] at this
    simpa using this
  · intro h x y hx hy
    rw [hg x y hx hy]
    by_cases hb : x < W ∧ y < H
    · rw [decide_eq_true hb, decide_eq_true ⟨⟨hx, hb.1⟩, ⟨hy, hb.2⟩⟩, h x y hx hy hb.1 hb.2]
    · rw [decide_eq_false hb, decide_eq_false (by omega)]
      rfl

theorem showsV (W H : Nat) (h8 : H % 8 = 0) (b : Buf) (c : Canvas) :
    Shows W H (getPixelV W H b) c ↔ ∀ x y : Int, 0 ≤ x → 0 ≤ y → x < W → y < H → bitV b x y = c x y :=
  shows_iff W H _ _ c (getPixelV_of W H h8 b)

theorem showsH (W H : Nat) (h8 : W % 8 = 0) (b : Buf) (c : Canvas) :
    Shows W H (getPixelH W H b) c ↔ ∀ x y : Int, 0 ≤ x → 0 ≤ y → x < W → y < H → bitH b x y = c x y :=
  shows_iff W H _ _ c (getPixelH_of W H h8 b)

theorem opV (W H : Nat) (h8 : H % 8 = 0) (b : Buf) (c : Canvas) (hs : Shows W H (getPixelV W H b) c) (v : Bool) (x y : Int) (hx : 0 ≤ x)
    (hy : 0 ≤ y) : ∃ b', (if v then setPixelV W H b x y else clearPixelV W H b x y) = some b' ∧ Shows W H (getPixelV W H b') (put c v x y) := by
  rw [showsV W H h8] at hs
  by_cases h : x < W ∧ y < H
  · cases v with
    | true =>
      refine ⟨_, by rw [if_pos rfl, setPixelV, if_pos h, cellV_of W H h8 x y hx hy h.1 h.2]; rfl, ?_⟩
      rw [showsV W H h8]
      intro a d ha hd haW hdH
      have hold := hs a d ha hd haW hdH
      unfold bitV Buf.set put at *
      simp only
      by_cases hc : d.toNat / 8 = y.toNat / 8 ∧ a.toNat = x.toNat
      · rw [if_pos hc, or_bit _ _ _ (by omega) (by omega), ← hc.1, ← hc.2, hold]
        by_cases he : a = x ∧ d = y
        · rw [if_pos he, decide_eq_true (by omega)]
          rfl
        · rw [if_neg he, decide_eq_false (by omega)]
          rfl
      · rw [if_neg hc, hold, if_neg (by omega)]
    | false =>
      refine ⟨_, by rw [if_neg (by decide), clearPixelV, if_pos h, cellV_of W H h8 x y hx hy h.1 h.2]; rfl, ?_⟩
      rw [showsV W H h8]
      intro a d ha hd haW hdH
      have hold := hs a d ha hd haW hdH
      unfold bitV Buf.set put at *
      simp only
      by_cases hc : d.toNat / 8 = y.toNat / 8 ∧ a.toNat = x.toNat
      · rw [if_pos hc, and_bit _ _ _ (by omega) (by omega), ← hc.1, ← hc.2, hold]
        by_cases he : a = x ∧ d = y
        · rw [if_pos he, decide_eq_true (by omega)]
          rfl
        · rw [if_neg he, decide_eq_false (by omega)]
          rfl
      · rw [if_neg hc, hold, if_neg (by omega)]
  · refine ⟨b, ?_, ?_⟩
    · cases v with
      | true => rw [if_pos rfl, setPixelV, if_neg h]
      | false => rw [if_neg (by decide), clearPixelV, if_neg h]
    · rw [showsV W H h8]
      intro a d ha hd haW hdH
      unfold put
      rw [if_neg (by omega)]
      exact hs a d ha hd haW hdH

theorem opH (W H : Nat) (h8 : W % 8 = 0) (b : Buf) (c : Canvas) (hs : Shows W H (getPixelH W H b) c) (v : Bool) (x y : Int) (hx : 0 ≤ x)
    (hy : 0 ≤ y) : ∃ b', (if v then setPixelH W H b x y else clearPixelH W H b x y) = some b' ∧ Shows W H (getPixelH W H b') (put c v x y) := by
  rw [showsH W H h8] at hs
  by_cases h : x < W ∧ y < H
  · cases v with
    | true =>
      refine ⟨_, by rw [if_pos rfl, setPixelH, if_pos h, cellH_of W H h8 x y hx hy h.1 h.2]; rfl, ?_⟩
      rw [showsH W H h8]
      intro a d ha hd haW hdH
      have hold := hs a d ha hd haW hdH
      unfold bitH Buf.set put at *
      simp only
      by_cases hc : d.toNat = y.toNat ∧ a.toNat / 8 = x.toNat / 8
      · rw [if_pos hc, or_bit _ _ _ (by omega) (by omega), ← hc.1, ← hc.2, hold]
        by_cases he : a = x ∧ d = y
        · rw [if_pos he, decide_eq_true (by omega)]
          rfl
        · rw [if_neg he, decide_eq_false (by omega)]
          rfl
      · rw [if_neg hc, hold, if_neg (by omega)]
    | false =>
      refine ⟨_, by rw [if_neg (by decide), clearPixelH, if_pos h, cellH_of W H h8 x y hx hy h.1 h.2]; rfl, ?_⟩
      rw [showsH W H h8]
      intro a d ha hd haW hdH
      have hold := hs a d ha hd haW hdH
      unfold bitH Buf.set put at *
      simp only
      by_cases hc : d.toNat = y.toNat ∧ a.toNat / 8 = x.toNat / 8
      · rw [if_pos hc, and_bit _ _ _ (by omega) (by omega), ← hc.1, ← hc.2, hold]
        by_cases he : a = x ∧ d = y
        · rw [if_pos he, decide_eq_true (by omega)]
          rfl
        · rw [if_neg he, decide_eq_false (by omega)]
          rfl
      · rw [if_neg hc, hold, if_neg (by omega)]
  · refine ⟨b, ?_, ?_⟩
    · cases v with
      | true => rw [if_pos rfl, setPixelH, if_neg h]
      | false => rw [if_neg (by decide), clearPixelH, if_neg h]
    · rw [showsH W H h8]
      intro a d ha hd haW hdH
      unfold put
      rw [if_neg (by omega)]
      exact hs a d ha hd haW hdH

/-- **C88** (partial: no negative coordinates) After any calls of `setPixel` and `clearPixel` a vertical display shows the part of the picture that is
on it; calls for pixels to the right and below the display have no effect. -/
theorem C88_vertical_partial (W H : Nat) (h8 : H % 8 = 0) : ∀ (l : List (Bool × Int × Int)) (b : Buf) (c : Canvas),
    Shows W H (getPixelV W H b) c → (∀ v x y, (v, x, y) ∈ l → 0 ≤ x ∧ 0 ≤ y) →
    ∃ b', drawV W H b l = some b' ∧ Shows W H (getPixelV W H b') (paint c l) := by
  intro l
  induction l with
  | nil => intro b c h _; exact ⟨b, rfl, h⟩
  | cons p l ih =>
    intro b c hs h
    obtain ⟨v, x, y⟩ := p
    have hp := h v x y List.mem_cons_self
    obtain ⟨b1, h1, h2⟩ := opV W H h8 b c hs v x y hp.1 hp.2
    obtain ⟨b2, h3, h4⟩ := ih b1 _ h2 (fun v x y hm => h v x y (List.mem_cons_of_mem _ hm))
    exact ⟨b2, by rw [drawV, h1]; exact h3, h4⟩

/-- **C88** (partial: no negative coordinates) The same for a horizontal display -/
theorem C88_horizontal_partial (W H : Nat) (h8 : W % 8 = 0) : ∀ (l : List (Bool × Int × Int)) (b : Buf) (c : Canvas),
    Shows W H (getPixelH W H b) c → (∀ v x y, (v, x, y) ∈ l → 0 ≤ x ∧ 0 ≤ y) →
    ∃ b', drawH W H b l = some b' ∧ Shows W H (getPixelH W H b') (paint c l) := by
  intro l
  induction l with
  | nil => intro b c h _; exact ⟨b, rfl, h⟩
  | cons p l ih =>
    intro b c hs h
    obtain ⟨v, x, y⟩ := p
    have hp := h v x y List.mem_cons_self
    obtain ⟨b1, h1, h2⟩ := opH W H h8 b c hs v x y hp.1 hp.2
    obtain ⟨b2, h3, h4⟩ := ih b1 _ h2 (fun v x y hm => h v x y (List.mem_cons_of_mem _ hm))
    exact ⟨b2, by rw [drawH, h1]; exact h3, h4⟩

/-- A cleared display shows the empty picture. -/
theorem C88_cleared (W H : Nat) (hW : W % 8 = 0) (hH : H % 8 = 0) :
    Shows W H (getPixelV W H fun _ _ => 0#8) (fun _ _ => false) ∧ Shows W H (getPixelH W H fun _ _ => 0#8) (fun _ _ => false) := by
  rw [showsV W H hH, showsH W H hW]
  constructor <;> (intros; unfold_projs) <;> simp [bitV, bitH]

/-- A pixel is set, cleared again and set outside. -/
example : ∃ b, drawV 16 8 (fun _ _ => 0#8) [(true, 3, 2), (true, 9, 7), (false, 3, 2), (true, 20, 2)] = some b ∧
    getPixelV 16 8 b 9 7 = some true ∧ getPixelV 16 8 b 3 2 = some false ∧ getPixelV 16 8 b 20 2 = some false := by
  refine ⟨_, rfl, ?_, ?_, ?_⟩ <;> decide +kernel

/-- A drawing function sets pixels only. -/
theorem sets_mem (l : List (Int × Int)) (v : Bool) (x y : Int) : (v, x, y) ∈ sets l ↔ v = true ∧ (x, y) ∈ l := by
  unfold sets
  simp only [List.mem_map, Prod.mk.injEq]
  constructor
  · rintro ⟨⟨a, b⟩, h, rfl, rfl, rfl⟩
    exact ⟨rfl, h⟩
  · rintro ⟨rfl, h⟩
    exact ⟨_, h, rfl, rfl, rfl⟩

/-- Pixels left of or above the display are not left out: the byte before the row is changed or a shift by a negative number takes place.  A circle that is
partly off the left side of the display does so. -/
theorem C88_negative_counterexample (W H : Nat) (hW : 0 < W) (hH : 0 < H) (b : Buf) :
    setPixelV W H b (-1) 0 = none ∧ setPixelH W H b (-1) 0 = none ∧ setPixelV W H b 0 (-1) = none ∧ setPixelH W H b 0 (-1) = none ∧
      getPixelV W H b (-1) 0 = none ∧ ∃ l, drawCircle 1 10 3 = some l ∧ drawV 128 64 b (sets l) = none := by
  refine ⟨?_, ?_, ?_, ?_, ?_, _, rfl, ?_⟩
  · unfold setPixelV cellV
    rw [if_pos (by omega), if_neg (by omega)]
    rfl
  · unfold setPixelH cellH
    rw [if_pos (by omega), if_neg]
    · rfl
    · intro h
      exact absurd h.2.2.2.2 (by decide)
  · unfold setPixelV cellV
    rw [if_pos (by omega), if_neg]
    · rfl
    · intro h
      exact absurd h.2.2.2.2 (by decide)
  · unfold setPixelH cellH
    rw [if_pos (by omega), if_neg (by omega)]
    rfl
  · unfold getPixelV cellV
    rw [if_pos (by omega), if_neg (by omega)]
    rfl
  · rfl

/-! ## The faster lines and images of the vertical display -/

theorem horizontalLoop_spec (W : Nat) (row : Nat) (byte : BitVec 8) : ∀ (n : Nat) (x : Int) (b : Buf), 0 ≤ x →
    ∃ b', horizontalLoop W row byte n x b = some b' ∧
      ∀ r c, b' r c = if r = row ∧ x ≤ c ∧ (c : Int) < x + n ∧ c < W then b r c ||| byte else b r c := by
  intro n
  induction n with
  | zero =>
    intro x b _
    refine ⟨b, rfl, fun r c => ?_⟩
    rw [if_neg (by omega)]
  | succ n ih =>
    intro x b hx
    rw [horizontalLoop]
    by_cases h : x < W
    · rw [if_pos h, if_pos hx]
      obtain ⟨b', h1, h2⟩ := ih (x + 1) (b.set row x.toNat (b row x.toNat ||| byte)) (by omega)
      refine ⟨b', h1, fun r c => ?_⟩
      rw [h2]
      unfold Buf.set
      by_cases hc : r = row ∧ c = x.toNat
      · rw [if_neg (by omega), if_pos hc, if_pos (by omega), hc.1, hc.2]
      · rw [if_neg hc]
        by_cases hd : r = row ∧ x + 1 ≤ c ∧ (c : Int) < x + 1 + n ∧ c < W
        · rw [if_pos hd, if_pos (by omega)]
        · rw [if_neg hd, if_neg (by omega)]
    · rw [if_neg h]
      obtain ⟨b', h1, h2⟩ := ih (x + 1) b (by omega)
      refine ⟨b', h1, fun r c => ?_⟩
      rw [h2, if_neg (by omega), if_neg (by omega)]

/-- **C92** (partial: not to the left of the display) The faster horizontal line sets the same pixels as the slow one. -/
theorem C92_horizontal_partial (W H : Nat) (h8 : H % 8 = 0) (b : Buf) (c : Canvas) (hs : Shows W H (getPixelV W H b) c) (x y length : Int)
    (hx : 0 ≤ x) (hl : 0 ≤ length) (hxl : x + length ≤ 32767) :
    ∃ b', drawHorizontalLineV W H b x y length = some b' ∧
      Shows W H (getPixelV W H b') (withAll (fun p q => (x ≤ p ∧ p < x + length) ∧ q = y) c) := by
  unfold drawHorizontalLineV
  rw [showsV W H h8] at hs
  by_cases hy : 0 ≤ y ∧ y < H
  · rw [if_pos hy, Props.Display.i16_of (by omega) (by omega), show x + length - x = length by omega]
    obtain ⟨b', h1, h2⟩ := horizontalLoop_spec W (y.toNat / 8) (1#8 <<< (y.toNat % 8)) length.toNat x b hx
    refine ⟨b', h1, ?_⟩
    rw [showsV W H h8]
    intro p q hp hq hpW hqH
    have hold := hs p q hp hq hpW hqH
    unfold bitV withAll at *
    rw [h2]
    by_cases hc : q.toNat / 8 = y.toNat / 8 ∧ x ≤ (p.toNat : Int) ∧ (p.toNat : Int) < x + length.toNat ∧ p.toNat < W
    · rw [if_pos hc, or_bit _ _ _ (by omega) (by omega), hold]
      by_cases he : q = y
      · rw [decide_eq_true (by omega), decide_eq_true (by omega)]
      · rw [decide_eq_false (by omega), decide_eq_false (by omega)]
    · rw [if_neg hc, hold, decide_eq_false (by omega)]
      rfl
  · rw [if_neg hy]
    refine ⟨b, rfl, ?_⟩
    rw [showsV W H h8]
    intro p q hp hq hpW hqH
    unfold withAll
    rw [hs p q hp hq hpW hqH, decide_eq_false (by omega)]
    rfl

theorem verticalLoop_spec (H x last : Nat) (hl : last < 256) : ∀ (n y : Nat) (byte : BitVec 8) (b : Buf), y ≤ last → last - y < n →
    ∃ b', verticalLoop H x last n y byte b = some (last, if y < last ∧ y < H / 8 then 0xff#8 else byte, b') ∧
      ∀ r c, b' r c = if c = x ∧ y ≤ r ∧ r < last ∧ r < H / 8 then b r c ||| (if r = y then byte else 0xff#8) else b r c := by
  intro n
  induction n with
  | zero => intro y byte b _ h; omega
  | succ n ih =>
    intro y byte b hy hn
    rw [verticalLoop]
    by_cases he : y ≠ last
    · rw [if_pos he, Nat.mod_eq_of_lt (by omega)]
      by_cases hr : y < H / 8
      · rw [if_pos hr]
        obtain ⟨b', h1, h2⟩ := ih (y + 1) 0xff#8 (b.set y x (b y x ||| byte)) (by omega) (by omega)
        refine ⟨b', ?_, fun r c => ?_⟩
        · rw [h1, ite_self, if_pos (by omega)]
        · rw [h2, ite_self]
          unfold Buf.set
          by_cases hc : r = y ∧ c = x
          · rw [if_neg (by omega), if_pos hc, if_pos (by omega), if_pos hc.1, hc.1, hc.2]
          · rw [if_neg hc]
            by_cases hd : c = x ∧ y + 1 ≤ r ∧ r < last ∧ r < H / 8
            · rw [if_pos hd, if_pos (by omega), if_neg (by omega)]
            · rw [if_neg hd, if_neg (by omega)]
      · rw [if_neg hr]
        obtain ⟨b', h1, h2⟩ := ih (y + 1) byte b (by omega) (by omega)
        refine ⟨b', ?_, fun r c => ?_⟩
        · rw [h1, if_neg (by omega), if_neg (by omega)]
        · rw [h2, if_neg (by omega), if_neg (by omega)]
    · rw [if_neg he]
      have : y = last := by omega
      refine ⟨b, by rw [if_neg (by omega), this], fun r c => ?_⟩
      rw [if_neg (by omega)]

theorem start_bit (k j : Nat) (hk : k < 8) (hj : j < 8) : (0xff#8 <<< k).getLsbD j = decide (k ≤ j) := by
  have : ∀ k : Fin 8, ∀ j : Fin 8, (0xff#8 <<< k.val).getLsbD j.val = decide (k.val ≤ j.val) := by decide
  exact this ⟨k, hk⟩ ⟨j, hj⟩

theorem end_bit (m j : Nat) (hm : m < 8) (hj : j < 8) : (0xff#8 >>> (8 - m)).getLsbD j = decide (j < m) := by
  have : ∀ m : Fin 8, ∀ j : Fin 8, (0xff#8 >>> (8 - m.val)).getLsbD j.val = decide (j.val < m.val) := by decide
  exact this ⟨m, hm⟩ ⟨j, hj⟩

theorem full_bit (j : Nat) (hj : j < 8) : (0xff#8).getLsbD j = true := by
  have : ∀ j : Fin 8, (0xff#8).getLsbD j.val = true := by decide
  exact this ⟨j, hj⟩

/-- **C92** (partial: the end of the line fits into seven bits, or the display is not higher than 128 pixels and the line ends before 249) The faster
vertical line sets the same pixels as the slow one. -/
theorem C92_vertical_partial (W H : Nat) (h8 : H % 8 = 0) (b : Buf) (c : Canvas) (hs : Shows W H (getPixelV W H b) c) (x y length : Int)
    (hy : 0 ≤ y) (hl : 0 ≤ length) (hyl : y + length ≤ 127 ∨ (H ≤ 128 ∧ y ≤ 127 ∧ y + length ≤ 248)) :
    ∃ b', drawVerticalLineV W H b x y length = some b' ∧
      Shows W H (getPixelV W H b') (withAll (fun p q => p = x ∧ (y ≤ q ∧ q < y + length)) c) := by
  unfold drawVerticalLineV
  rw [showsV W H h8] at hs
  by_cases hx : 0 ≤ x ∧ x < W
  · rw [if_pos hx]
    simp only
    rw [Int.tmod_eq_emod_of_nonneg hy, if_neg (by omega), Int.tdiv_eq_ediv_of_nonneg hy, show (y / 8 % 256).toNat = y.toNat / 8 by omega,
      show (y % 8).toNat = y.toNat % 8 by omega]
    by_cases h127 : y + length ≤ 127
    · have hb : Int.bmod (y + length) 256 = y + length := by
        unfold Int.bmod
        simp only
        split <;> omega
      obtain ⟨m, hm⟩ : ∃ m : Nat, y + length = m := ⟨(y + length).toNat, by omega⟩
      rw [hb, hm, Int.tdiv_eq_ediv_of_nonneg (by omega), Int.tmod_eq_emod_of_nonneg (by omega),
        show ((m : Int) / 8 % 256).toNat = m / 8 by omega, show (8 - (m : Int) % 8).toNat = 8 - m % 8 by omega]
      obtain ⟨b', h1, h2⟩ := verticalLoop_spec H x.toNat (m / 8) (by omega) 257 (y.toNat / 8) (0xff#8 <<< (y.toNat % 8)) b (by omega) (by omega)
      rw [h1]
      refine ⟨_, rfl, ?_⟩
      rw [showsV W H h8]
      intro p q hp hq hpW hqH
      have hold := hs p q hp hq hpW hqH
      have s1 := start_bit (y.toNat % 8) (q.toNat % 8) (by omega) (by omega)
      have s2 := end_bit (m % 8) (q.toNat % 8) (by omega) (by omega)
      have s3 := full_bit (q.toNat % 8) (by omega)
      generalize 0xff#8 <<< (y.toNat % 8) = B1 at *
      generalize 0xff#8 >>> (8 - m % 8) = B2 at *
      unfold bitV withAll at *
      simp only
      -- the byte of the pixel before the mask of the end
      have hb' : (b' (q.toNat / 8) p.toNat).getLsbD (q.toNat % 8) =
          (decide (p = x ∧ y ≤ q ∧ q.toNat / 8 < m / 8) || c p q) := by
        rw [h2]
        by_cases hc : p.toNat = x.toNat ∧ y.toNat / 8 ≤ q.toNat / 8 ∧ q.toNat / 8 < m / 8 ∧ q.toNat / 8 < H / 8
        · rw [if_pos hc, BitVec.getLsbD_or, hold, Bool.or_comm]
          by_cases he : q.toNat / 8 = y.toNat / 8
          · rw [if_pos he, s1]
            congr 1
            exact decide_eq_decide.2 (by omega)
          · rw [if_neg he, s3, decide_eq_true (by omega)]
        · rw [if_neg hc, hold, decide_eq_false (by omega)]
          rfl
      by_cases hend : m / 8 < H / 8
      · rw [if_pos hend]
        unfold Buf.set
        by_cases hc : q.toNat / 8 = m / 8 ∧ p.toNat = x.toNat
        · rw [if_pos hc, ← hc.1, ← hc.2, BitVec.getLsbD_or, hb', BitVec.getLsbD_and, s2, decide_eq_false (by omega), Bool.false_or, Bool.or_comm]
          congr 1
          by_cases hw : y.toNat / 8 < q.toNat / 8 ∧ y.toNat / 8 < H / 8
          · rw [if_pos hw, s3, Bool.true_and]
            exact decide_eq_decide.2 (by omega)
          · rw [if_neg hw, s1, ← Bool.decide_and]
            exact decide_eq_decide.2 (by omega)
        · rw [if_neg hc, hb']
          congr 1
          exact decide_eq_decide.2 (by omega)
      · rw [if_neg hend, hb']
        congr 1
        exact decide_eq_decide.2 (by omega)
    · -- the end wraps around, far beyond the last row of bytes
      have hb : Int.bmod (y + length) 256 = y + length - 256 := by
        unfold Int.bmod
        simp only
        split <;> omega
      obtain ⟨m, hm⟩ : ∃ m : Nat, (m : Int) = 256 - (y + length) := ⟨(256 - (y + length)).toNat, by omega⟩
      have htd : (y + length - 256).tdiv 8 = -((m / 8 : Nat) : Int) := by
        rw [show y + length - 256 = -(m : Int) by omega, Int.neg_tdiv, Int.tdiv_eq_ediv_of_nonneg (by omega)]
        omega
      rw [hb, htd, show (-((m / 8 : Nat) : Int) % 256).toNat = 256 - m / 8 by omega]
      obtain ⟨b', h1, h2⟩ := verticalLoop_spec H x.toNat (256 - m / 8) (by omega) 257 (y.toNat / 8) (0xff#8 <<< (y.toNat % 8)) b (by omega) (by omega)
      rw [h1]
      refine ⟨_, rfl, ?_⟩
      simp only
      rw [if_neg (by omega), showsV W H h8]
      intro p q hp hq hpW hqH
      have hold := hs p q hp hq hpW hqH
      have s1 := start_bit (y.toNat % 8) (q.toNat % 8) (by omega) (by omega)
      have s3 := full_bit (q.toNat % 8) (by omega)
      generalize 0xff#8 <<< (y.toNat % 8) = B1 at *
      unfold bitV withAll at *
      rw [h2]
      by_cases hc : p.toNat = x.toNat ∧ y.toNat / 8 ≤ q.toNat / 8 ∧ q.toNat / 8 < 256 - m / 8 ∧ q.toNat / 8 < H / 8
      · rw [if_pos hc, BitVec.getLsbD_or, hold, Bool.or_comm]
        congr 1
        by_cases he : q.toNat / 8 = y.toNat / 8
        · rw [if_pos he, s1]
          exact decide_eq_decide.2 (by omega)
        · rw [if_neg he, s3, decide_eq_true (by omega)]
      · rw [if_neg hc, hold, decide_eq_false (by omega)]
        rfl
  · rw [if_neg hx]
    refine ⟨b, rfl, ?_⟩
    rw [showsV W H h8]
    intro p q hp hq hpW hqH
    unfold withAll
    rw [hs p q hp hq hpW hqH, decide_eq_false (by omega)]
    rfl

/-- A line of three pixels over the border of two bytes -/
example : ∃ b, drawVerticalLineV 128 64 (fun _ _ => 0#8) 5 6 3 = some b ∧ b 0 5 = 0xc0#8 ∧ b 1 5 = 0x01#8 ∧ b 2 5 = 0#8 ∧ b 1 6 = 0#8 :=
  ⟨_, rfl, by decide +kernel, by decide +kernel, by decide +kernel, by decide +kernel⟩

/-- The end of the line is stored in an `int8_t`: on a display with 176 rows a line of 150 pixels from row 10 goes down to the bottom; a line of 250
pixels on a display with 64 rows is not drawn at all.  A horizontal line that begins left of the display writes before the buffer. -/
theorem C92_lines_counterexample :
    (drawVerticalLineV 132 176 (fun _ _ => 0#8) 0 10 150).bind (fun b => getPixelV 132 176 b 0 160) = some true ∧
    (drawVerticalLineV 132 176 (fun _ _ => 0#8) 0 10 150).bind (fun b => getPixelV 132 176 b 0 175) = some true ∧
    (drawVerticalLineV 128 64 (fun _ _ => 0#8) 0 0 250).bind (fun b => getPixelV 128 64 b 0 0) = some false ∧
    (drawVerticalLineV 128 64 (fun _ _ => 0#8) 0 0 250).bind (fun b => getPixelV 128 64 b 0 40) = some false ∧
    drawHorizontalLineV 128 64 (fun _ _ => 0#8) (-1) 0 10 = none :=
  ⟨by decide +kernel, by decide +kernel, by decide +kernel, by decide +kernel, rfl⟩

theorem imageLoop_spec (W H : Nat) (hW : W ≤ 32767) (hH : H ≤ 32767) (x ρ : Int) (w : Nat) (data : Nat → BitVec 8) :
    ∀ (l : List (Nat × Nat)) (b : Buf), (∀ i k : Nat, (i, k) ∈ l → -32768 ≤ x + i ∧ x + i ≤ 32767 ∧ -32768 ≤ k + ρ ∧ k + ρ < (H / 8 : Nat)) →
      ∃ b', imageLoop W H x (u16 ρ) w data l b = some b' ∧
        ∀ r c : Nat, b' r c = if c < W ∧ x ≤ c ∧ ρ ≤ r ∧ (((c : Int) - x).toNat, ((r : Int) - ρ).toNat) ∈ l then
          data (((c : Int) - x).toNat + ((r : Int) - ρ).toNat * w) else b r c := by
  intro l
  induction l with
  | nil =>
    intro b _
    refine ⟨b, rfl, fun r c => ?_⟩
    rw [if_neg]
    rintro ⟨_, _, _, h⟩
    exact absurd h (by simp)
  | cons p l ih =>
    intro b h
    obtain ⟨i, k⟩ := p
    obtain ⟨h1, h2, h3, h4⟩ := h i k List.mem_cons_self
    have hl := fun i k hm => h i k (List.mem_cons_of_mem _ hm)
    have hk : u16 ((k : Int) + u16 ρ) = u16 (k + ρ) := by
      unfold u16
      omega
    rw [imageLoop, hk]
    by_cases hin : u16 (x + i) < W ∧ u16 (k + ρ) < H
    · have hx : u16 (x + i) = x + i ∧ 0 ≤ x + i := by
        unfold u16 at *
        omega
      have hy : u16 (k + ρ) = k + ρ ∧ 0 ≤ k + ρ := by
        unfold u16 at *
        omega
      rw [if_pos hin, hx.1, hy.1, if_pos h4]
      obtain ⟨b', g1, g2⟩ := ih (b.set (k + ρ).toNat (x + i).toNat (data (i + k * (w : Int).toNat))) hl
      refine ⟨b', g1, fun r c => ?_⟩
      rw [g2]
      by_cases hm : (((c : Int) - x).toNat, ((r : Int) - ρ).toNat) ∈ l
      · by_cases hc : c < W ∧ x ≤ c ∧ ρ ≤ r
        · rw [if_pos ⟨hc.1, hc.2.1, hc.2.2, hm⟩, if_pos ⟨hc.1, hc.2.1, hc.2.2, List.mem_cons_of_mem _ hm⟩]
        · rw [if_neg (fun h => hc ⟨h.1, h.2.1, h.2.2.1⟩), if_neg (fun h => hc ⟨h.1, h.2.1, h.2.2.1⟩)]
          unfold Buf.set
          rw [if_neg]
          rintro ⟨hr, hc'⟩
          rw [hx.1] at hin
          omega
      · rw [if_neg (fun h => hm h.2.2.2)]
        unfold Buf.set
        by_cases hrc : r = (k + ρ).toNat ∧ c = (x + i).toNat
        · have e1 : ((c : Int) - x).toNat = i := by omega
          have e2 : ((r : Int) - ρ).toNat = k := by omega
          rw [if_pos hrc, e1, e2, if_pos ⟨by rw [hx.1] at hin; omega, by omega, by omega, List.mem_cons_self⟩, Int.toNat_natCast]
        · rw [if_neg hrc, if_neg]
          rintro ⟨_, q1, q2, q3⟩
          rcases List.mem_cons.1 q3 with q3 | q3
          · simp only [Prod.mk.injEq] at q3
            omega
          · exact hm q3
    · rw [if_neg hin]
      obtain ⟨b', g1, g2⟩ := ih b hl
      refine ⟨b', g1, fun r c => ?_⟩
      rw [g2]
      by_cases hc : c < W ∧ x ≤ c ∧ ρ ≤ r
      · have hne : (((c : Int) - x).toNat, ((r : Int) - ρ).toNat) ≠ (i, k) := by
          simp only [ne_eq, Prod.mk.injEq]
          intro he
          unfold u16 at hin
          omega
        have hiff : ((((c : Int) - x).toNat, ((r : Int) - ρ).toNat) ∈ (i, k) :: l) ↔ ((((c : Int) - x).toNat, ((r : Int) - ρ).toNat) ∈ l) := by
          rw [List.mem_cons]
          simp only [hne, false_or]
        simp only [hiff]
      · rw [if_neg (fun h => hc ⟨h.1, h.2.1, h.2.2.1⟩), if_neg (fun h => hc ⟨h.1, h.2.1, h.2.2.1⟩)]

/-- **C92** (partial: the faster path only up to the bottom of the display, the slow path without negative coordinates) `drawImageRaw` of a vertical display
puts the image on the picture.  The faster path does so for images partly off the left, right and upper side of the display as well. -/
theorem C92_image_partial (W H : Nat) (hW : W ≤ 32767) (hH : H ≤ 32767) (h8 : H % 8 = 0) (b : Buf) (c : Canvas)
    (hs : Shows W H (getPixelV W H b) c) (x y : Int) (w h : Nat) (data : Nat → BitVec 8)
    (h1 : -32768 ≤ x) (h2 : -32768 ≤ y) (h3 : x + w ≤ 32768) (h4 : y + h ≤ 32768)
    (hcase : (y % 8 = 0 ∧ h % 8 = 0 ∧ y + h ≤ H) ∨ (0 ≤ x ∧ 0 ≤ y ∧ ¬ (y % 8 = 0 ∧ h % 8 = 0))) :
    ∃ b', drawImageRawV W H b x y w h data = some b' ∧ Shows W H (getPixelV W H b') (withImage x y w h data c) := by
  have hmod : y.tmod 8 = 0 ↔ y % 8 = 0 := by
    rw [Int.tmod_eq_emod]
    split <;> omega
  unfold drawImageRawV
  rcases hcase with hc | hc
  · rw [if_pos ⟨hmod.2 hc.1, hc.2.1⟩]
    obtain ⟨ρ, hρ⟩ : ∃ ρ : Int, y = 8 * ρ := ⟨y / 8, by omega⟩
    have htd : y.tdiv 8 = ρ := by rw [hρ, Int.mul_tdiv_cancel_left _ (by decide)]
    rw [htd]
    have hmem : ∀ i k : Nat, (i, k) ∈ (List.range w).flatMap (fun i => (List.range ((h + 7) / 8)).map fun k => (i, k)) ↔
        i < w ∧ k < (h + 7) / 8 := by
      intro i k
      simp only [List.mem_flatMap, List.mem_map, List.mem_range, Prod.mk.injEq]
      constructor
      · rintro ⟨i', hi, k', hk, rfl, rfl⟩
        exact ⟨hi, hk⟩
      · rintro ⟨hi, hk⟩
        exact ⟨i, hi, k, hk, rfl, rfl⟩
    obtain ⟨b', g1, g2⟩ := imageLoop_spec W H hW hH x ρ w data
      ((List.range w).flatMap fun i => (List.range ((h + 7) / 8)).map fun k => (i, k)) b (by
        intro i k hm
        rw [hmem] at hm
        omega)
    refine ⟨b', g1, ?_⟩
    rw [showsV W H h8] at hs ⊢
    intro p q hp hq hpW hqH
    have hold := hs p q hp hq hpW hqH
    unfold bitV withImage at *
    rw [g2]
    simp only [hmem]
    by_cases hin : x ≤ p ∧ p < x + w ∧ y ≤ q ∧ q < y + h
    · rw [if_pos (by omega), if_pos hin, show ((p.toNat : Int) - x).toNat = (p - x).toNat by omega,
        show (((q.toNat / 8 : Nat) : Int) - ρ).toNat = (q - y).toNat / 8 by omega, show q.toNat % 8 = (q - y).toNat % 8 by omega]
    · rw [if_neg (by omega), if_neg hin]
      exact hold
  · rw [if_neg (fun hh => hc.2.2 ⟨hmod.1 hh.1, hh.2⟩)]
    have hm := Props.Display.mem_image x y w h data h1 h2 h3 h4
    obtain ⟨b', g1, g2⟩ := C88_vertical_partial W H h8 (drawImageRaw x y w h data) b c hs (by
      intro v a d had
      have := ((hm v a d).1 had).1
      omega)
    rw [Props.Display.C90_image x y w h data h1 h2 h3 h4] at g2
    exact ⟨b', g1, g2⟩

/-- The row of bytes is compared with the number of pixels: an image of 16 rows at row 56 of a display with 64 rows writes behind the buffer. -/
theorem C92_image_counterexample : drawImageRawV 128 64 (fun _ _ => 0#8) 0 56 8 16 (fun _ => 0xff#8) = none := by rfl

/-! ## Text -/

/-- The layout of a font: two bytes with the size, the maximal width, the height, the spaces, the first character and the number of characters; then the
widths of the characters and their images -/
structure Layout (font : Font) (height hspace vspace first : Nat) (widths : List Nat) : Prop where
  height : font[3]?.map BitVec.toNat = some height
  hspace : font[4]?.map BitVec.toNat = some hspace
  vspace : font[5]?.map BitVec.toNat = some vspace
  first : font[6]?.map BitVec.toNat = some first
  count : font[7]?.map BitVec.toNat = some widths.length
  widths : ∀ (i : Nat) (h : i < widths.length), font[8 + i]?.map BitVec.toNat = some widths[i]

theorem get_of {font : Font} {i n : Nat} (h : font[i]?.map BitVec.toNat = some n) : ∃ v, font[i]? = some v ∧ v.toNat = n := by
  rw [Option.map_eq_some_iff] at h
  exact h

theorem offsetLoop_spec (font : Font) (rows : Nat) : ∀ (ws : List Nat) (i offset : Nat),
    (∀ (j : Nat) (h : j < ws.length), font[i + j]?.map BitVec.toNat = some ws[j]) →
    offsetLoop font rows ws.length i (offset % 65536) = some ((offset + rows * ws.sum) % 65536) := by
  intro ws
  induction ws with
  | nil => intro i offset _; rfl
  | cons w ws ih =>
    intro i offset h
    obtain ⟨v, hv, hw⟩ := get_of (h 0 (by simp))
    rw [Nat.add_zero] at hv
    rw [List.length_cons, offsetLoop, hv, Option.bind_some, show (offset % 65536 + v.toNat * rows) % 65536 = (offset + v.toNat * rows) % 65536 by omega,
      ih (i + 1) (offset + v.toNat * rows)]
    · rw [hw, List.sum_cons, Nat.mul_add, Nat.mul_comm rows]
      simp only [List.getElem_cons_zero]
      rw [Nat.add_assoc, Nat.mul_comm w rows]
    · intro j hj
      have := h (j + 1) (by simpa using hj)
      rw [show i + (j + 1) = i + 1 + j by omega] at this
      simpa using this

/-- **C95** (partial: characters below 128) `write` draws the image of the character at the cursor and moves the cursor to the right by the width of the
character and the space after it. -/
theorem C95_write_partial (font : Font) (height hspace vspace first : Nat) (widths : List Nat)
    (hf : Layout font height hspace vspace first widths) (hsize : glyph first ((height + 7) / 8) widths (first + widths.length) ≤ 65535)
    (x y : Int) (c : BitVec 8) (h1 : first ≤ c.toNat) (h2 : c.toNat < first + widths.length) (h3 : c.toNat < 128) (hc : c ≠ 10#8) :
    write font x y c = some ⟨some (x, y, charWidth first widths c.toNat, height, glyph first ((height + 7) / 8) widths c.toNat),
      i16 (x + charWidth first widths c.toNat + vspace), y⟩ := by
  obtain ⟨v3, e3, f3⟩ := get_of hf.height
  obtain ⟨v4, e4, f4⟩ := get_of hf.hspace
  obtain ⟨v5, e5, f5⟩ := get_of hf.vspace
  obtain ⟨v6, e6, f6⟩ := get_of hf.first
  obtain ⟨v7, e7, f7⟩ := get_of hf.count
  obtain ⟨w, e8, f8⟩ := get_of (hf.widths (c.toNat - first) (by omega))
  have hrows : ((height + 7) / 8) % 256 = (height + 7) / 8 := by
    have := v3.isLt
    omega
  have hpos : (c.toNat - first + 8) % 256 = 8 + (c.toNat - first) := by omega
  have hlen : (widths.take (c.toNat - first)).length = 8 + (c.toNat - first) - 8 := by
    rw [List.length_take]
    omega
  have hoff := offsetLoop_spec font ((height + 7) / 8) (widths.take (c.toNat - first)) 8 (widths.length + 8) (by
    intro j hj
    rw [List.getElem_take]
    exact hf.widths j (by rw [List.length_take] at hj; omega))
  have hcw : charWidth first widths c.toNat = w.toNat := by
    unfold charWidth
    rw [f8, List.getD_eq_getElem?_getD, List.getElem?_eq_getElem (by omega)]
    rfl
  have hsum : (widths.take (c.toNat - first)).sum ≤ widths.sum := by
    conv => rhs; rw [← List.take_append_drop (c.toNat - first) widths, List.sum_append]
    omega
  have hle : (height + 7) / 8 * (widths.take (c.toNat - first)).sum ≤ (height + 7) / 8 * widths.sum := Nat.mul_le_mul_left _ hsum
  have hsize' : 8 + widths.length + (height + 7) / 8 * widths.sum ≤ 65535 := by
    unfold glyph at hsize
    rw [show first + widths.length - first = widths.length by omega, List.take_length] at hsize
    exact hsize
  have h7 := v7.isLt
  rw [hlen, Nat.mod_eq_of_lt (a := widths.length + 8) (by omega), Nat.mod_eq_of_lt (by omega)] at hoff
  unfold write
  rw [e3, Option.bind_some, e4, Option.bind_some, e5, Option.bind_some, if_neg hc, e6, Option.bind_some, e7, Option.bind_some,
    if_neg (by omega)]
  simp only
  rw [f3, f5, f6, f7, hrows, hpos, hoff, Option.bind_some, e8, Option.map_some, if_pos h3, hcw]
  have hg : widths.length + 8 + (height + 7) / 8 * (widths.take (c.toNat - first)).sum = glyph first ((height + 7) / 8) widths c.toNat := by
    unfold glyph
    omega
  have hi : i16 (i16 (x + (w.toNat : Int)) + (vspace : Int)) = i16 (x + (w.toNat : Int) + (vspace : Int)) := by
    unfold i16
    rw [Int.bmod_add_bmod]
  rw [hg, hi]

/-- **C95** (partial: characters below 128 that are in the font) The cursor moves by the result of `getStringWidth`. -/
theorem C95_width_partial (font : Font) (height hspace vspace first : Nat) (widths : List Nat)
    (hf : Layout font height hspace vspace first widths) (hsize : glyph first ((height + 7) / 8) widths (first + widths.length) ≤ 65535) :
    ∀ (s : List (BitVec 8)) (x y : Int), (∀ c ∈ s, first ≤ c.toNat ∧ c.toNat < first + widths.length ∧ c.toNat < 128 ∧ c ≠ 10#8) → i16 x = x →
      ∃ w, getStringWidth font s = some w ∧ w = (s.map fun c => charWidth first widths c.toNat + vspace).sum % 65536 ∧
        writeAll font x y s = some (i16 (x + w), y) := by
  intro s
  induction s with
  | nil =>
    intro x y _ hx
    refine ⟨0, rfl, rfl, ?_⟩
    rw [writeAll, Int.ofNat_zero, Int.add_zero, hx]
  | cons c s ih =>
    intro x y h hx
    obtain ⟨h1, h2, h3, h4⟩ := h c List.mem_cons_self
    obtain ⟨w, g1, g2, g3⟩ := ih (i16 (x + charWidth first widths c.toNat + vspace)) y (fun c hc => h c (List.mem_cons_of_mem _ hc)) (by
      unfold i16
      rw [Int.bmod_bmod])
    obtain ⟨v5, e5, f5⟩ := get_of hf.vspace
    obtain ⟨v6, e6, f6⟩ := get_of hf.first
    obtain ⟨v, e8, f8⟩ := get_of (hf.widths (c.toNat - first) (by omega))
    have hcw : charWidth first widths c.toNat = v.toNat := by
      unfold charWidth
      rw [f8, List.getD_eq_getElem?_getD, List.getElem?_eq_getElem (by omega)]
      rfl
    refine ⟨(v.toNat + vspace + w) % 65536, ?_, ?_, ?_⟩
    · rw [getStringWidth, e5, Option.bind_some, e6, Option.bind_some]
      simp only
      rw [f6, f5, if_neg (by omega), show (8 + ((c.toNat : Int) - (first : Int))).toNat = 8 + (c.toNat - first) by omega, e8, Option.bind_some, g1]
      rfl
    · rw [List.map_cons, List.sum_cons, g2, hcw]
      omega
    · rw [writeAll, C95_write_partial font height hspace vspace first widths hf hsize x y c h1 h2 h3 h4, Option.bind_some, g3, hcw]
      refine congrArg some (Prod.ext ?_ rfl)
      unfold i16
      simp only
      rw [Int.bmod_add_bmod]
      have he : (x + (v.toNat : Int) + (vspace : Int) + (w : Int)) % ((65536 : Nat) : Int) =
          (x + (((v.toNat + vspace + w) % 65536 : Nat) : Int)) % ((65536 : Nat) : Int) := by omega
      unfold Int.bmod
      rw [he]

/-- A character that is not in the font (and not the end of a line) draws nothing and does not move the cursor. -/
theorem C95_outside (font : Font) (height hspace vspace first : Nat) (widths : List Nat)
    (hf : Layout font height hspace vspace first widths) (x y : Int) (c : BitVec 8)
    (h : c.toNat < first ∨ first + widths.length ≤ c.toNat) (hc : c ≠ 10#8) :
    write font x y c = some ⟨none, x, y⟩ := by
  obtain ⟨v3, e3, f3⟩ := get_of hf.height
  obtain ⟨v4, e4, f4⟩ := get_of hf.hspace
  obtain ⟨v5, e5, f5⟩ := get_of hf.vspace
  obtain ⟨v6, e6, f6⟩ := get_of hf.first
  obtain ⟨v7, e7, f7⟩ := get_of hf.count
  simp only [write, e3, e4, e5, e6, e7, Option.bind_some]
  rw [if_neg hc, if_pos (by omega)]

/-- The end of a line moves the cursor to the beginning of the next line. -/
theorem C95_newline (font : Font) (height hspace vspace first : Nat) (widths : List Nat)
    (hf : Layout font height hspace vspace first widths) (x y : Int) :
    write font x y 10#8 = some ⟨none, 0, i16 (y + height + hspace)⟩ := by
  obtain ⟨v3, e3, f3⟩ := get_of hf.height
  obtain ⟨v4, e4, f4⟩ := get_of hf.hspace
  obtain ⟨v5, e5, f5⟩ := get_of hf.vspace
  simp only [write, e3, e4, e5, Option.bind_some, if_true, f3, f4]

/-- A font with the characters from 65 to 67 and with widths 2, 1 and 3 -/
def smallFont : Font := [20#8, 0#8, 3#8, 8#8, 0#8, 1#8, 65#8, 3#8, 2#8, 1#8, 3#8, 1#8, 2#8, 3#8, 4#8, 5#8, 6#8]

example : Layout smallFont 8 0 1 65 [2, 1, 3] where
  height := rfl
  hspace := rfl
  vspace := rfl
  first := rfl
  count := rfl
  widths := by decide

example : write smallFont 10 20 67#8 = some ⟨some (10, 20, 3, 8, 14), 14, 20⟩ ∧ getStringWidth smallFont [65#8, 67#8] = some 7 ∧
    writeAll smallFont 10 20 [65#8, 67#8] = some (17, 20) := by decide

/-- Characters from 128 on: `getStringWidth` counts a space that `write` does not leave.  Characters that are not in the font, such as a newline, are left
out by `write`, but `getStringWidth` reads outside of the table of widths or even before the font. -/
theorem C95_width_counterexample :
    getStringWidth [9#8, 0#8, 3#8, 8#8, 0#8, 1#8, 128#8, 1#8, 2#8] [128#8] = some 3 ∧
    writeAll [9#8, 0#8, 3#8, 8#8, 0#8, 1#8, 128#8, 1#8, 2#8] 0 0 [128#8] = some (2, 0) ∧
    getStringWidth smallFont [10#8] = none ∧ writeAll smallFont 5 0 [10#8] = some (0, 8) ∧
    getStringWidth smallFont [64#8] = some 4 ∧ writeAll smallFont 5 0 [64#8] = some (5, 0) := by decide

/-- With 248 or more characters the index into the table of widths does not fit into its eight bits: the character 250 of a font that begins with 0 gets the
width and the image of something else. -/
theorem C95_write_counterexample :
    (write (([0#8, 0#8, 7#8, 8#8, 0#8, 1#8, 0#8, 255#8] : Font) ++ List.replicate 255 5#8) 0 0 250#8).map (fun w => w.image) =
      some (some (0, 0, 7, 8, 263)) ∧ charWidth 0 (List.replicate 255 5) 250 = 5 ∧ glyph 0 1 (List.replicate 255 5) 250 = 1513 := by decide +kernel

end Props.Mono
