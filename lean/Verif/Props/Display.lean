import Verif.Model.Display
import Verif.Spec.Display
import Mathlib.Tactic.Linarith
import Mathlib.Tactic.Ring

set_option autoImplicit false

/-! Drawing on a graphic display: C89, C90, C91, C93, C94. -/

namespace Props.Display

open Modm.Display
open Spec.Display

theorem i16_of {x : Int} (h1 : -32768 ≤ x) (h2 : x < 32768) : i16 x = x := by
  unfold i16 Int.bmod
  simp only
  split <;> omega

theorem u16_of {x : Int} (h1 : 0 ≤ x) (h2 : x < 65536) : u16 x = x := Int.emod_eq_of_lt h1 h2

theorem px_of {x y : Int} (h1 : -32768 ≤ x) (h2 : x < 32768) (h3 : -32768 ≤ y) (h4 : y < 32768) : px x y = (x, y) := by
  unfold px
  rw [i16_of h1 h2, i16_of h3 h4]

/-! ## Lines -/

/-- Exchange of the axes -/
def flip (p : Int × Int) : Int × Int := (p.2, p.1)

theorem mem_flip (l : List (Int × Int)) (x y : Int) : (x, y) ∈ l.map flip ↔ (y, x) ∈ l := by
  simp only [List.mem_map, flip, Prod.mk.injEq]
  constructor
  · rintro ⟨⟨a, b⟩, h, h1, h2⟩
    simp only at h1 h2
    subst h1 h2
    exact h
  · intro h
    exact ⟨_, h, rfl, rfl⟩

theorem onLine_flip {x1 y1 x2 y2 x y : Int} (h : OnLine x1 y1 x2 y2 x y) : OnLine y1 x1 y2 x2 y x := by
  obtain ⟨h, a, b⟩ := h
  refine ⟨?_, b, a⟩
  rw [Nat.max_comm, ← Int.natAbs_neg, Int.neg_sub]
  exact h

theorem onLine_swap {x1 y1 x2 y2 x y : Int} (h : OnLine x1 y1 x2 y2 x y) : OnLine x2 y2 x1 y1 x y := by
  obtain ⟨h, a, b⟩ := h
  refine ⟨?_, by omega, by omega⟩
  rw [show (x1 - x2).natAbs = (x2 - x1).natAbs by omega, show (y1 - y2).natAbs = (y2 - y1).natAbs by omega]
  refine le_trans (le_of_eq ?_) h
  rw [← Int.natAbs_neg]
  congr 2
  ring

theorem isLine_flip {l : List (Int × Int)} {x1 y1 x2 y2 : Int} (h : IsLine l x1 y1 x2 y2) : IsLine (l.map flip) y1 x1 y2 x2 where
  on x y hm := onLine_flip (h.on _ _ ((mem_flip _ _ _).1 hm))
  first := (mem_flip _ _ _).2 h.first
  last := (mem_flip _ _ _).2 h.last
  column hd x a b := by
    obtain ⟨y, hy, hu⟩ := h.row hd x a b
    exact ⟨y, (mem_flip _ _ _).2 hy, fun y' hy' => hu _ ((mem_flip _ _ _).1 hy')⟩
  row hd x a b := by
    obtain ⟨y, hy, hu⟩ := h.column hd x a b
    exact ⟨y, (mem_flip _ _ _).2 hy, fun y' hy' => hu _ ((mem_flip _ _ _).1 hy')⟩
  walk := by
    intro i hi
    rw [List.length_map] at hi
    simp only [List.getElem_map, flip]
    exact (h.walk i hi).symm
  count := by
    rw [List.length_map, h.count, Nat.max_comm]

theorem isLine_swap {l : List (Int × Int)} {x1 y1 x2 y2 : Int} (h : IsLine l x1 y1 x2 y2) : IsLine l x2 y2 x1 y1 where
  on x y hm := onLine_swap (h.on _ _ hm)
  first := h.last
  last := h.first
  column hd x a b := h.column (by omega) x (by omega) (by omega)
  row hd x a b := h.row (by omega) x (by omega) (by omega)
  walk := h.walk
  count := by
    rw [h.count]
    omega

/-- The number of steps across after `k` steps along -/
def across (dX dY e : Int) (k : Nat) : Int := (k * dY - e + dX - 1) / dX

theorem bresenham_closed (dX dY s : Int) (hX : 0 < dX) (hX' : dX ≤ 32767) (hY : 0 ≤ dY) (hYX : dY ≤ dX) (hs : s = 1 ∨ s = -1) :
    ∀ (n : Nat) (x y e : Int), 0 ≤ e → e < dX → -32768 ≤ x → x + n ≤ 32768 → -32768 ≤ y → y ≤ 32767 →
      -32768 ≤ y + s * across dX dY e n → y + s * across dX dY e n ≤ 32767 →
      bresenham false dX dY s n x y e = (List.range n).map fun (k : Nat) => (x + k, y + s * across dX dY e k) := by
  intro n
  induction n with
  | zero => intros; rfl
  | succ n ih =>
    intro x y e h0 h1 h2 h3 h4 h5 h6 h7
    have ha0 : across dX dY e 0 = 0 := by
      unfold across
      exact Int.ediv_eq_zero_of_lt (by push_cast; omega) (by push_cast; omega)
    rw [bresenham, if_neg (by decide), px_of h2 (by omega) h4 (by omega), i16_of (x := e - dY) (by omega) (by omega),
      List.range_succ_eq_map, List.map_cons, List.map_map]
    refine List.cons_eq_cons.2 ⟨by rw [ha0]; simp, ?_⟩
    by_cases he : e - dY < 0
    · simp only [if_pos he]
      have hstep : ∀ k : Nat, across dX dY (e - dY + dX) k = across dX dY e (k + 1) - 1 := by
        intro k
        unfold across
        rw [show (k * dY - (e - dY + dX) + dX - 1 : Int) = (((k + 1 : Nat) : Int) * dY - e + dX - 1) + (-1) * dX by push_cast; ring,
          Int.add_mul_ediv_right _ _ (by omega)]
        omega
      have hpos : 1 ≤ across dX dY e (n + 1) := by
        unfold across
        rw [Int.le_ediv_iff_mul_le hX]
        have : (0 : Int) ≤ n * dY := Int.mul_nonneg (by omega) hY
        push_cast
        rw [Int.add_mul]
        omega
      have hy : -32768 ≤ y + s ∧ y + s ≤ 32767 := by
        rcases hs with rfl | rfl <;> omega
      have hr : s * across dX dY (e - dY + dX) n = s * across dX dY e (n + 1) - s := by
        rw [hstep, Int.mul_sub]
        omega
      rw [i16_of hy.1 (by omega), i16_of (by omega) (by omega),
        ih _ _ _ (by omega) (by omega) (by omega) (by push_cast at h3; omega) hy.1 hy.2 (by rw [hr]; omega) (by rw [hr]; omega)]
      refine List.map_congr_left fun k _ => ?_
      simp only [Function.comp_apply, hstep, Prod.mk.injEq]
      refine ⟨by push_cast; omega, ?_⟩
      simp only [Nat.succ_eq_add_one]
      ring
    · simp only [if_neg he]
      have hstep : ∀ k : Nat, across dX dY (e - dY) k = across dX dY e (k + 1) := by
        intro k
        unfold across
        congr 1
        push_cast
        ring
      rw [ih _ _ _ (by omega) (by omega) (by omega) (by push_cast at h3; omega) h4 h5 (by rw [hstep]; omega) (by rw [hstep]; omega)]
      refine List.map_congr_left fun k _ => ?_
      simp only [Function.comp_apply, hstep, Prod.mk.injEq, Nat.succ_eq_add_one]
      exact ⟨by push_cast; omega, trivial⟩

theorem bresenham_steep (dX dY s : Int) :
    ∀ (n : Nat) (x y e : Int), bresenham true dX dY s n x y e = (bresenham false dX dY s n x y e).map flip := by
  intro n
  induction n with
  | zero => intros; rfl
  | succ n ih =>
    intro x y e
    rw [bresenham, bresenham, if_pos rfl, if_neg (show ¬ (false = true) by decide), List.map_cons]
    refine List.cons_eq_cons.2 ⟨rfl, ?_⟩
    by_cases he : i16 (e - dY) < 0
    · simp only [if_pos he]
      exact ih _ _ _
    · simp only [if_neg he]
      exact ih _ _ _

theorem rasterLine_steep (x1 y1 x2 y2 : Int) : rasterLine true x1 y1 x2 y2 = (rasterLine false x1 y1 x2 y2).map flip :=
  bresenham_steep _ _ _ _ _ _ _

/-- What `across` is: the error stays between zero and the length -/
theorem across_error (dX dY e : Int) (hX : 0 < dX) (k : Nat) :
    0 ≤ e - k * dY + across dX dY e k * dX ∧ e - k * dY + across dX dY e k * dX < dX := by
  unfold across
  have h1 := Int.emod_nonneg (k * dY - e + dX - 1) (show dX ≠ 0 by omega)
  have h2 := Int.emod_lt_of_pos (k * dY - e + dX - 1) hX
  have h3 := Int.mul_ediv_add_emod (k * dY - e + dX - 1) dX
  rw [Int.mul_comm] at h3
  omega

theorem across_step (dX dY e : Int) (hX : 0 < dX) (hY : 0 ≤ dY) (hYX : dY ≤ dX) (k : Nat) :
    across dX dY e k ≤ across dX dY e (k + 1) ∧ across dX dY e (k + 1) ≤ across dX dY e k + 1 := by
  have h1 := across_error dX dY e hX k
  have h2 := across_error dX dY e hX (k + 1)
  push_cast at h2
  generalize across dX dY e k = a at *
  generalize across dX dY e (k + 1) = b at *
  have h3 : (b - a) * dX < 2 * dX := by rw [Int.sub_mul]; rw [Int.add_mul] at h2; omega
  have h4 : (-1) * dX < (b - a) * dX := by rw [Int.sub_mul]; rw [Int.add_mul] at h2; omega
  have h5 := lt_of_mul_lt_mul_right h3 hX.le
  have h6 := lt_of_mul_lt_mul_right h4 hX.le
  omega

theorem rasterLine_isLine (x1 y1 x2 y2 : Int) (a1 : -32767 ≤ x1) (a2 : x2 ≤ 32766) (b1 : -32767 ≤ y1) (b2 : y1 ≤ 32766)
    (c1 : -32767 ≤ y2) (c2 : y2 ≤ 32766) (hx : x1 < x2) (hd : x2 - x1 ≤ 32767) (hy : (y2 - y1).natAbs ≤ (x2 - x1).natAbs) :
    IsLine (rasterLine false x1 y1 x2 y2) x1 y1 x2 y2 := by
  obtain ⟨dX, hdX⟩ : ∃ d, d = x2 - x1 := ⟨_, rfl⟩
  obtain ⟨dY, hdY⟩ : ∃ d : Int, d = (y2 - y1).natAbs := ⟨_, rfl⟩
  obtain ⟨s, hs⟩ : ∃ s : Int, s = if y1 < y2 then 1 else -1 := ⟨_, rfl⟩
  obtain ⟨e, he⟩ : ∃ e : Int, e = dX.tdiv 2 := ⟨_, rfl⟩
  have hs' : s = 1 ∨ s = -1 := by
    rw [hs]
    split <;> simp
  have he2 : 2 * e ≤ dX ∧ dX ≤ 2 * e + 1 := by
    rw [Int.tdiv_eq_ediv_of_nonneg (by omega)] at he
    omega
  have hYX : dY ≤ dX := by omega
  have hsY : y2 = y1 + s * dY := by
    rw [hs]
    split <;> omega
  obtain ⟨n, hn⟩ : ∃ n : Nat, (n : Int) = dX := ⟨dX.toNat, by omega⟩
  -- the number of steps across never exceeds the height
  have hbound : ∀ k : Nat, k ≤ n → 0 ≤ across dX dY e k ∧ across dX dY e k ≤ dY := by
    intro k hk
    have h := across_error dX dY e (by omega) k
    have hk0 : 0 ≤ (k : Int) * dY := Int.mul_nonneg (by omega) (by omega)
    have hk1 : (k : Int) * dY ≤ dX * dY := Int.mul_le_mul_of_nonneg_right (by omega) (by omega)
    generalize across dX dY e k = a at *
    have h1 : (-1) * dX < a * dX := by omega
    have h2 : a * dX < (dY + 1) * dX := by rw [Int.add_mul, Int.mul_comm dY]; omega
    have h3 := lt_of_mul_lt_mul_right h1 (by omega)
    have h4 := lt_of_mul_lt_mul_right h2 (by omega)
    omega
  have hend : across dX dY e n = dY := by
    have h := across_error dX dY e (by omega) n
    rw [hn] at h
    generalize across dX dY e n = a at *
    have h1 : (dY - 1) * dX < a * dX := by rw [Int.sub_mul, Int.mul_comm dY]; omega
    have h2 : a * dX < (dY + 1) * dX := by rw [Int.add_mul, Int.mul_comm dY]; omega
    have h3 := lt_of_mul_lt_mul_right h1 (by omega)
    have h4 := lt_of_mul_lt_mul_right h2 (by omega)
    omega
  have hstart : across dX dY e 0 = 0 := by
    unfold across
    exact Int.ediv_eq_zero_of_lt (by push_cast; omega) (by push_cast; omega)
  have hin : ∀ k : Nat, k ≤ n → min y1 y2 ≤ y1 + s * across dX dY e k ∧ y1 + s * across dX dY e k ≤ max y1 y2 := by
    intro k hk
    have h := hbound k hk
    generalize across dX dY e k = a at *
    rcases hs' with rfl | rfl <;> omega
  have hlast : -32768 ≤ y1 + s * across dX dY e (n + 1) ∧ y1 + s * across dX dY e (n + 1) ≤ 32767 := by
    have h := across_step dX dY e (by omega) (by omega) hYX n
    have h' := hin n (le_refl _)
    generalize across dX dY e (n + 1) = b at *
    generalize across dX dY e n = a at *
    rcases hs' with rfl | rfl <;> omega
  have hl : rasterLine false x1 y1 x2 y2 = (List.range (n + 1)).map fun k => (x1 + (k : Nat), y1 + s * across dX dY e k) := by
    unfold rasterLine
    simp only
    rw [← hdX, ← hdY, i16_of (x := dX) (by omega) (by omega), i16_of (x := dY) (by omega) (by omega), ← he, ← hs,
      show (dX + 1).toNat = n + 1 by omega]
    exact bresenham_closed dX dY s (by omega) (by omega) (by omega) hYX hs' (n + 1) x1 y1 e (by omega) (by omega) (by omega)
      (by push_cast; omega) (by omega) (by omega) hlast.1 hlast.2
  have hmem : ∀ x y, (x, y) ∈ rasterLine false x1 y1 x2 y2 ↔ ∃ k : Nat, k ≤ n ∧ x = x1 + k ∧ y = y1 + s * across dX dY e k := by
    intro x y
    rw [hl]
    simp only [List.mem_map, List.mem_range, Prod.mk.injEq]
    constructor
    · rintro ⟨k, hk, rfl, rfl⟩
      exact ⟨k, by omega, rfl, rfl⟩
    · rintro ⟨k, hk, rfl, rfl⟩
      exact ⟨k, by omega, rfl, rfl⟩
  have hcol : ∀ x, x1 ≤ x → x ≤ x2 → ∃ y, (x, y) ∈ rasterLine false x1 y1 x2 y2 ∧
      ∀ y', (x, y') ∈ rasterLine false x1 y1 x2 y2 → y' = y := by
    intro x h1 h2
    refine ⟨y1 + s * across dX dY e (x - x1).toNat, (hmem _ _).2 ⟨_, by omega, by omega, rfl⟩, ?_⟩
    intro y' hy'
    obtain ⟨k, hk, hxk, rfl⟩ := (hmem _ _).1 hy'
    rw [show (x - x1).toNat = k by omega]
  refine ⟨?_, ?_, ?_, ?_, ?_, ?_, ?_⟩
  · intro x y hxy
    obtain ⟨k, hk, rfl, rfl⟩ := (hmem _ _).1 hxy
    refine ⟨?_, by omega, hin k hk⟩
    rw [← hdX, show y1 + s * across dX dY e k - y1 = s * across dX dY e k by omega, show y2 - y1 = s * dY by omega,
      show x1 + (k : Int) - x1 = k by omega,
      show dX * (s * across dX dY e k) - s * dY * k = s * (across dX dY e k * dX - k * dY) by ring, Int.natAbs_mul,
      show s.natAbs = 1 by omega]
    have h := across_error dX dY e (by omega) k
    generalize across dX dY e k * dX = a at *
    generalize (k : Int) * dY = b at *
    omega
  · exact (hmem _ _).2 ⟨0, by omega, by omega, by rw [hstart]; omega⟩
  · exact (hmem _ _).2 ⟨n, by omega, by omega, by rw [hend]; exact hsY⟩
  · intro _ x h1 h2
    exact hcol x (by omega) (by omega)
  · -- a line that is as steep as it is flat goes one step across with every step along
    intro hdiag y h1 h2
    have hdd : dY = dX := by omega
    have hall : ∀ k : Nat, k ≤ n → across dX dY e k = k := by
      intro k hk
      have h := across_error dX dY e (by omega) k
      rw [hdd] at h ⊢
      generalize across dX dX e k = a at *
      have h3 : ((k : Int) - 1) * dX < a * dX := by rw [Int.sub_mul]; omega
      have h4 : a * dX < ((k : Int) + 1) * dX := by rw [Int.add_mul]; omega
      have h5 := lt_of_mul_lt_mul_right h3 (by omega)
      have h6 := lt_of_mul_lt_mul_right h4 (by omega)
      omega
    refine ⟨x1 + (y - y1).natAbs, (hmem _ _).2 ⟨(y - y1).natAbs, by omega, rfl, ?_⟩, ?_⟩
    · rw [hall _ (by omega)]
      rcases hs' with rfl | rfl <;> omega
    · intro x' hx'
      obtain ⟨k, hk, rfl, hyk⟩ := (hmem _ _).1 hx'
      rw [hall k hk] at hyk
      rcases hs' with rfl | rfl <;> omega
  · intro i hi
    simp only [hl, List.getElem_map, List.getElem_range]
    have h := across_step dX dY e (by omega) (by omega) hYX i
    refine ⟨by push_cast; omega, ?_⟩
    generalize across dX dY e (i + 1) = b at *
    generalize across dX dY e i = a at *
    rcases hs' with rfl | rfl <;> omega
  · rw [hl, List.length_map, List.length_range]
    omega

theorem horizontal_closed (x y length : Int) (h1 : -32768 ≤ x) (h2 : 0 ≤ length) (h3 : x + length ≤ 32767) (h4 : -32768 ≤ y) (h5 : y ≤ 32767) :
    drawHorizontalLine x y length = (List.range length.toNat).map fun (k : Nat) => (x + k, y) := by
  unfold drawHorizontalLine
  rw [i16_of (by omega) (by omega), show x + length - x = length by omega]
  refine List.map_congr_left fun k hk => ?_
  rw [List.mem_range] at hk
  exact px_of (by omega) (by omega) h4 (by omega)

theorem vertical_eq (x y length : Int) : drawVerticalLine x y length = (drawHorizontalLine y x length).map flip := by
  unfold drawVerticalLine drawHorizontalLine
  rw [List.map_map]
  rfl

theorem horizontal_isLine (x y n : Int) (h1 : -32768 ≤ x) (h2 : 0 ≤ n) (h3 : x + n + 1 ≤ 32767) (h4 : -32768 ≤ y) (h5 : y ≤ 32767) :
    IsLine (drawHorizontalLine x y (n + 1)) x y (x + n) y := by
  have hl := horizontal_closed x y (n + 1) h1 (by omega) (by omega) h4 h5
  have hmem : ∀ a b, (a, b) ∈ drawHorizontalLine x y (n + 1) ↔ x ≤ a ∧ a ≤ x + n ∧ b = y := by
    intro a b
    rw [hl]
    simp only [List.mem_map, List.mem_range, Prod.mk.injEq]
    constructor
    · rintro ⟨k, hk, rfl, rfl⟩
      exact ⟨by omega, by omega, rfl⟩
    · rintro ⟨hk, hk', rfl⟩
      exact ⟨(a - x).toNat, by omega, by omega, rfl⟩
  refine ⟨?_, ?_, ?_, ?_, ?_, ?_, ?_⟩
  · intro a b hab
    obtain ⟨h, h', rfl⟩ := (hmem _ _).1 hab
    refine ⟨?_, by omega, by omega⟩
    simp
  · exact (hmem _ _).2 ⟨by omega, by omega, rfl⟩
  · exact (hmem _ _).2 ⟨by omega, by omega, rfl⟩
  · intro _ a ha hb
    exact ⟨y, (hmem _ _).2 ⟨by omega, by omega, rfl⟩, fun y' hy' => ((hmem _ _).1 hy').2.2⟩
  · intro hd b hb hb'
    have hn : n = 0 := by omega
    refine ⟨x, (hmem _ _).2 ⟨by omega, by omega, by omega⟩, fun x' hx' => ?_⟩
    have := (hmem _ _).1 hx'
    omega
  · intro i hi
    simp only [hl, List.getElem_map, List.getElem_range]
    refine ⟨by push_cast; omega, by omega⟩
  · rw [hl, List.length_map, List.length_range]
    omega

theorem vertical_isLine (x y n : Int) (h1 : -32768 ≤ y) (h2 : 0 ≤ n) (h3 : y + n + 1 ≤ 32767) (h4 : -32768 ≤ x) (h5 : x ≤ 32767) :
    IsLine (drawVerticalLine x y (n + 1)) x y x (y + n) := by
  rw [vertical_eq]
  exact isLine_flip (horizontal_isLine y x n h1 h2 h3 h4 h5)

/-- **C89** `drawLine` draws a line: both ends, one pixel for every step along the longer axis, each as near to the straight line as can be,
without gaps. -/
theorem C89_line (x1 y1 x2 y2 : Int) (a1 : -32767 ≤ x1) (a2 : x1 ≤ 32766) (b1 : -32767 ≤ y1) (b2 : y1 ≤ 32766)
    (c1 : -32767 ≤ x2) (c2 : x2 ≤ 32766) (d1 : -32767 ≤ y2) (d2 : y2 ≤ 32766)
    (hx : (x2 - x1).natAbs ≤ 32767) (hy : (y2 - y1).natAbs ≤ 32767) :
    IsLine (drawLine x1 y1 x2 y2) x1 y1 x2 y2 := by
  unfold drawLine
  split
  · rename_i h
    subst h
    split
    · rw [u16_of (by omega) (by omega)]
      have h := vertical_isLine x1 y2 (y1 - y2) (by omega) (by omega) (by omega) (by omega) (by omega)
      rw [show y2 + (y1 - y2) = y1 by omega] at h
      exact isLine_swap h
    · rw [u16_of (by omega) (by omega)]
      have h := vertical_isLine x1 y1 (y2 - y1) (by omega) (by omega) (by omega) (by omega) (by omega)
      rw [show y1 + (y2 - y1) = y2 by omega] at h
      exact h
  · split
    · rename_i _ h
      subst h
      split
      · rw [u16_of (by omega) (by omega)]
        have h := horizontal_isLine x2 y1 (x1 - x2) (by omega) (by omega) (by omega) (by omega) (by omega)
        rw [show x2 + (x1 - x2) = x1 by omega] at h
        exact isLine_swap h
      · rw [u16_of (by omega) (by omega)]
        have h := horizontal_isLine x1 y1 (x2 - x1) (by omega) (by omega) (by omega) (by omega) (by omega)
        rw [show x1 + (x2 - x1) = x2 by omega] at h
        exact h
    · split
      · unfold orderedLine
        split
        · rw [rasterLine_steep]
          exact isLine_swap (isLine_flip (rasterLine_isLine y2 x2 y1 x1 (by omega) (by omega) (by omega) (by omega) (by omega) (by omega)
            (by omega) (by omega) (by omega)))
        · rw [rasterLine_steep]
          exact isLine_flip (rasterLine_isLine y1 x1 y2 x2 (by omega) (by omega) (by omega) (by omega) (by omega) (by omega)
            (by omega) (by omega) (by omega))
      · unfold orderedLine
        split
        · exact isLine_swap (rasterLine_isLine x2 y2 x1 y1 (by omega) (by omega) (by omega) (by omega) (by omega) (by omega)
            (by omega) (by omega) (by omega))
        · exact rasterLine_isLine x1 y1 x2 y2 (by omega) (by omega) (by omega) (by omega) (by omega) (by omega)
            (by omega) (by omega) (by omega)

/-- A flat line, a steep line upwards to the left, and the same backwards -/
example : drawLine 0 0 5 2 = [(0, 0), (1, 0), (2, 1), (3, 1), (4, 2), (5, 2)] ∧
    drawLine 10 10 8 4 = [(8, 4), (8, 5), (9, 6), (9, 7), (9, 8), (10, 9), (10, 10)] ∧
    drawLine (-2) 0 0 2 = [(-2, 0), (-1, 1), (0, 2)] := by decide

/-- The bound on the differences is needed: in a line across more than half of the range of coordinates the length of the line does not fit into its
variable; the second pixel of a line that climbs by one is already on the next row. -/
theorem C89_line_counterexample : ¬ IsLine (drawLine (-20000) 0 20000 1) (-20000) 0 20000 1 := by
  intro h
  have hp : (drawLine (-20000) 0 20000 1).tail.head? = some (-19999, 1) := by decide +kernel
  have hm : (-19999, 1) ∈ drawLine (-20000) 0 20000 1 := List.mem_of_mem_tail (List.mem_of_mem_head? hp)
  have h := (h.on _ _ hm).1
  revert h
  decide

/-! ## Horizontal and vertical lines, rectangles and images -/

theorem mem_horizontal (x y length : Int) (h1 : -32768 ≤ x) (h2 : 0 ≤ length) (h3 : x + length ≤ 32767) (h4 : -32768 ≤ y) (h5 : y ≤ 32767)
    (a b : Int) : (a, b) ∈ drawHorizontalLine x y length ↔ (x ≤ a ∧ a < x + length) ∧ b = y := by
  rw [horizontal_closed x y length h1 h2 h3 h4 h5]
  simp only [List.mem_map, List.mem_range, Prod.mk.injEq]
  constructor
  · rintro ⟨k, hk, rfl, rfl⟩
    exact ⟨by omega, rfl⟩
  · rintro ⟨hk, rfl⟩
    exact ⟨(a - x).toNat, by omega, by omega, rfl⟩

theorem mem_vertical (x y length : Int) (h1 : -32768 ≤ y) (h2 : 0 ≤ length) (h3 : y + length ≤ 32767) (h4 : -32768 ≤ x) (h5 : x ≤ 32767)
    (a b : Int) : (a, b) ∈ drawVerticalLine x y length ↔ a = x ∧ (y ≤ b ∧ b < y + length) := by
  rw [vertical_eq, mem_flip, mem_horizontal y x length h1 h2 h3 h4 h5]
  exact and_comm

/-- **C90** A horizontal line sets the given number of pixels to the right of its start, a vertical line the given number downwards, and nothing else. -/
theorem C90_straight_lines (x y length : Int) (h1 : -32768 ≤ x) (h2 : -32768 ≤ y) (h3 : 0 ≤ length) (h4 : x + length ≤ 32767)
    (h5 : y + length ≤ 32767) (a b : Int) :
    ((a, b) ∈ drawHorizontalLine x y length ↔ (x ≤ a ∧ a < x + length) ∧ b = y) ∧
    ((a, b) ∈ drawVerticalLine x y length ↔ a = x ∧ (y ≤ b ∧ b < y + length)) :=
  ⟨mem_horizontal x y length h1 h3 h4 h2 (by omega) a b, mem_vertical x y length h2 h3 h5 h1 (by omega) a b⟩

example : drawHorizontalLine (-1) 4 3 = [(-1, 4), (0, 4), (1, 4)] ∧ drawVerticalLine 7 30 2 = [(7, 30), (7, 31)] := by decide

/-- **C90** `drawRectangle` sets exactly the pixels of the border. -/
theorem C90_rectangle_partial (x y w h : Int) (h1 : -32768 ≤ x) (h2 : -32768 ≤ y) (hw : 1 ≤ w) (hh : 1 ≤ h) (h3 : x + w ≤ 32767)
    (h4 : y + h ≤ 32767) (a b : Int) : (a, b) ∈ drawRectangle x y w h ↔ OnBorder x y w h a b := by
  have e1 : i16 (u16 (x + w - 1)) = x + w - 1 := by
    unfold i16 u16 Int.bmod
    simp only
    split <;> omega
  have e2 : i16 (u16 (y + h - 1)) = y + h - 1 := by
    unfold i16 u16 Int.bmod
    simp only
    split <;> omega
  unfold drawRectangle
  simp only
  rw [e1, e2, List.mem_append, List.mem_append, List.mem_append, mem_horizontal _ _ _ h1 (by omega) h3 h2 (by omega),
    mem_horizontal _ _ _ h1 (by omega) h3 (by omega) (by omega), mem_vertical _ _ _ h2 (by omega) h4 h1 (by omega),
    mem_vertical _ _ _ h2 (by omega) h4 (by omega) (by omega)]
  unfold OnBorder
  omega

example : drawRectangle 3 (-1) 3 2 =
    [(3, -1), (4, -1), (5, -1), (3, 0), (4, 0), (5, 0), (3, -1), (3, 0), (5, -1), (5, 0)] := by decide

/-- A rectangle without any width is not empty: it has a left and a right border next to each other. -/
theorem C90_rectangle_counterexample :
    drawRectangle 10 10 0 2 = [(10, 10), (10, 11), (9, 10), (9, 11)] ∧ ¬ OnBorder 10 10 0 2 9 10 := by
  refine ⟨by decide, ?_⟩
  unfold OnBorder
  omega

/-- Changes that all agree with a picture -/
theorem paint_of (f : Canvas) : ∀ (l : List (Bool × Int × Int)) (c : Canvas), (∀ v x y, (v, x, y) ∈ l → v = f x y) →
    ∀ x y, paint c l x y = if ∃ v, (v, x, y) ∈ l then f x y else c x y := by
  intro l
  induction l with
  | nil =>
    intro c _ x y
    simp [paint]
  | cons p l ih =>
    intro c h x y
    obtain ⟨v, a, b⟩ := p
    rw [paint, ih _ (fun v x y hm => h v x y (List.mem_cons_of_mem _ hm))]
    by_cases h1 : ∃ v, (v, x, y) ∈ l
    · have h2 : ∃ w, (w, x, y) ∈ (v, a, b) :: l := by
        obtain ⟨w, hw⟩ := h1
        exact ⟨w, List.mem_cons_of_mem _ hw⟩
      rw [if_pos h1, if_pos h2]
    · rw [if_neg h1]
      unfold put
      by_cases h2 : x = a ∧ y = b
      · obtain ⟨rfl, rfl⟩ := h2
        rw [if_pos ⟨rfl, rfl⟩, if_pos ⟨v, List.mem_cons_self⟩]
        exact h v x y List.mem_cons_self
      · rw [if_neg h2, if_neg]
        rintro ⟨w, hw⟩
        rcases List.mem_cons.1 hw with hw | hw
        · simp only [Prod.mk.injEq] at hw
          exact h2 ⟨hw.2.1, hw.2.2⟩
        · exact h1 ⟨w, hw⟩

/-- The changes of `drawImageRaw` -/
theorem mem_image (x y : Int) (w h : Nat) (data : Nat → BitVec 8) (h1 : -32768 ≤ x) (h2 : -32768 ≤ y) (h3 : x + w ≤ 32768)
    (h4 : y + h ≤ 32768) (v : Bool) (a b : Int) : (v, a, b) ∈ drawImageRaw x y w h data ↔
      (x ≤ a ∧ a < x + w ∧ y ≤ b ∧ b < y + h) ∧
        v = (data ((a - x).toNat + ((b - y).toNat / 8) * w)).getLsbD ((b - y).toNat % 8) := by
  unfold drawImageRaw
  simp only [List.mem_flatMap, List.mem_map, List.mem_range, Prod.mk.injEq]
  constructor
  · rintro ⟨i, hi, k, hk, j, hj, hv, ha, hb⟩
    have hj' : j < 8 ∧ k * 8 + j < h := by
      by_cases hs : h - k * 8 > 8
      · rw [if_pos hs] at hj
        omega
      · rw [if_neg hs] at hj
        omega
    rw [i16_of (by omega) (by omega)] at ha
    rw [i16_of (by omega) (by omega)] at hb
    refine ⟨by omega, ?_⟩
    rw [← hv, ← ha, ← hb, show (x + (i : Int) - x).toNat = i by omega,
      show (y + ((k * 8 : Nat) : Int) + (j : Int) - y).toNat = k * 8 + j by omega, show (k * 8 + j) / 8 = k by omega,
      show (k * 8 + j) % 8 = j by omega]
  · rintro ⟨hab, hv⟩
    refine ⟨(a - x).toNat, by omega, (b - y).toNat / 8, by omega, (b - y).toNat % 8, ?_, hv.symm, ?_, ?_⟩
    · split <;> omega
    · rw [i16_of (by omega) (by omega)]
      omega
    · rw [i16_of (by omega) (by omega)]
      omega

/-- **C90** `drawImageRaw` puts the image on the picture and leaves the rest as it is. -/
theorem C90_image (x y : Int) (w h : Nat) (data : Nat → BitVec 8) (h1 : -32768 ≤ x) (h2 : -32768 ≤ y) (h3 : x + w ≤ 32768)
    (h4 : y + h ≤ 32768) (c : Canvas) : paint c (drawImageRaw x y w h data) = withImage x y w h data c := by
  have hmem := mem_image x y w h data h1 h2 h3 h4
  funext a b
  rw [paint_of (withImage x y w h data c)]
  · by_cases hab : x ≤ a ∧ a < x + w ∧ y ≤ b ∧ b < y + h
    · rw [if_pos ⟨_, (hmem _ _ _).2 ⟨hab, rfl⟩⟩]
    · rw [if_neg]
      · unfold withImage
        rw [if_neg hab]
      · rintro ⟨v, hv⟩
        exact hab ((hmem _ _ _).1 hv).1
  · intro v a b hv
    obtain ⟨hab, hv⟩ := (hmem _ _ _).1 hv
    unfold withImage
    rw [if_pos hab]
    exact hv

/-- Two columns of ten rows -/
example : drawImageRaw 5 (-1) 1 10 (fun n => if n = 0 then 0x05#8 else 0xfe#8) =
    [(true, 5, -1), (false, 5, 0), (true, 5, 1), (false, 5, 2), (false, 5, 3), (false, 5, 4), (false, 5, 5), (false, 5, 6),
     (false, 5, 7), (true, 5, 8)] := by decide

/-- `clearPixel(glcd::Point)` sets the pixel. -/
theorem C88_clear_point_counterexample (c : Canvas) (x y : Int) : paint c [clearPixelPoint (x, y)] x y = true := by
  simp [paint, clearPixelPoint, put]

/-! ## Circles -/

/-- The eight mirror images of the point `(u, v)` around the centre -/
def Oct (cx cy u v a b : Int) : Prop :=
  ((a - cx).natAbs = u.natAbs ∧ (b - cy).natAbs = v.natAbs) ∨ ((a - cx).natAbs = v.natAbs ∧ (b - cy).natAbs = u.natAbs)

theorem mem_circle4 (cx cy x y : Int) (h1 : -32768 ≤ cx - x) (h2 : cx + x < 32768) (h3 : -32768 ≤ cy - y) (h4 : cy + y < 32768)
    (hx : 0 ≤ x) (hy : 0 ≤ y) (a b : Int) :
    (a, b) ∈ drawCircle4 cx cy x y ↔ (a - cx).natAbs = x.natAbs ∧ (b - cy).natAbs = y.natAbs := by
  unfold drawCircle4
  rw [px_of (x := cx + x) (y := cy + y) (by omega) (by omega) (by omega) (by omega),
    px_of (x := cx - x) (y := cy - y) (by omega) (by omega) (by omega) (by omega),
    px_of (x := cx - x) (y := cy + y) (by omega) (by omega) (by omega) (by omega),
    px_of (x := cx + x) (y := cy - y) (by omega) (by omega) (by omega) (by omega)]
  by_cases h5 : x ≠ 0
  · by_cases h6 : y ≠ 0
    · simp only [if_pos h5, if_pos h6, List.mem_append, List.mem_cons, Prod.mk.injEq, List.not_mem_nil, or_false]
      omega
    · simp only [if_pos h5, if_neg h6, List.mem_append, List.mem_cons, Prod.mk.injEq, List.not_mem_nil, or_false]
      omega
  · by_cases h6 : y ≠ 0
    · simp only [if_neg h5, if_pos h6, List.mem_append, List.mem_cons, Prod.mk.injEq, List.not_mem_nil, or_false]
      omega
    · simp only [if_neg h5, if_neg h6, List.mem_append, List.mem_cons, Prod.mk.injEq, List.not_mem_nil, or_false]
      omega

theorem circleLoop_spec (cx cy r : Int) (hr : r ≤ 16383) (h1 : -32768 ≤ cx - r) (h2 : cx + r < 32768) (h3 : -32768 ≤ cy - r)
    (h4 : cy + r < 32768) :
    ∀ (n : Nat) (x y e : Int), 0 ≤ y → y ≤ x → x ≤ r → (x - y).toNat < n → e = x * x + y * y - r * r - x → -2 * x ≤ e → e ≤ 0 →
      (y < x → e ≤ -1) →
      ∃ (l pts : List (Int × Int)), circleLoop cx cy n x y e = some l ∧ (∀ a b, (a, b) ∈ l ↔ ∃ u v, (u, v) ∈ pts ∧ Oct cx cy u v a b) ∧
        (∀ u v, (u, v) ∈ pts → 0 ≤ u ∧ u ≤ x ∧ 0 ≤ v ∧ v ≤ u ∧ (r * r - v * v - u * u).natAbs ≤ u.natAbs) ∧
        (∀ w, y ≤ w → w ≤ x → ∃ u v, (u, v) ∈ pts ∧ (u = w ∨ v = w)) := by
  intro n
  induction n with
  | zero => intro x y e _ _ _ h; omega
  | succ n ih =>
    intro x y e hy hyx hxr hn he he1 he2 he3
    have hon : (r * r - y * y - x * x).natAbs ≤ x.natAbs := by
      generalize x * x = xx at *
      generalize y * y = yy at *
      generalize r * r = rr at *
      omega
    have m1 := fun a b => mem_circle4 cx cy x y (by omega) (by omega) (by omega) (by omega) (by omega) (by omega) a b
    have m2 := fun a b => mem_circle4 cx cy y x (by omega) (by omega) (by omega) (by omega) (by omega) (by omega) a b
    rw [circleLoop]
    by_cases hlt : x > y
    · have he3 := he3 hlt
      rw [if_pos hlt]
      simp only
      rw [i16_of (x := e + y) (by omega) (by omega), i16_of (x := y + 1) (by omega) (by omega),
        i16_of (x := e + y + (y + 1)) (by omega) (by omega)]
      -- one step of the octant
      have key : ∀ (x' e' : Int), (x' = x ∨ x' = x - 1) → y ≤ x' → e' = x' * x' + (y + 1) * (y + 1) - r * r - x' → -2 * x' ≤ e' → e' ≤ 0 →
          (y + 1 < x' → e' ≤ -1) →
          ∃ (l pts : List (Int × Int)), (circleLoop cx cy n x' (y + 1) e').map (fun l => drawCircle4 cx cy x y ++ drawCircle4 cx cy y x ++ l) = some l ∧
            (∀ a b, (a, b) ∈ l ↔ ∃ u v, (u, v) ∈ pts ∧ Oct cx cy u v a b) ∧
            (∀ u v, (u, v) ∈ pts → 0 ≤ u ∧ u ≤ x ∧ 0 ≤ v ∧ v ≤ u ∧ (r * r - v * v - u * u).natAbs ≤ u.natAbs) ∧
            (∀ w, y ≤ w → w ≤ x → ∃ u v, (u, v) ∈ pts ∧ (u = w ∨ v = w)) := by
        intro x' e' hx' hyx' g1 g2 g3 g4
        by_cases hend : y + 1 ≤ x'
        · obtain ⟨l, pts, hl, hm, hp, hw⟩ := ih x' (y + 1) e' (by omega) hend (by omega) (by omega) g1 g2 g3 g4
          refine ⟨_, (x, y) :: pts, by rw [hl]; rfl, ?_, ?_, ?_⟩
          · intro a b
            rw [List.mem_append, List.mem_append, m1, m2, hm]
            constructor
            · rintro ((h | h) | ⟨u, v, h, h'⟩)
              · exact ⟨x, y, List.mem_cons_self, Or.inl h⟩
              · exact ⟨x, y, List.mem_cons_self, Or.inr h⟩
              · exact ⟨u, v, List.mem_cons_of_mem _ h, h'⟩
            · rintro ⟨u, v, h, h'⟩
              rcases List.mem_cons.1 h with h | h
              · simp only [Prod.mk.injEq] at h
                rw [h.1, h.2] at h'
                exact Or.inl h'
              · exact Or.inr ⟨u, v, h, h'⟩
          · intro u v h
            rcases List.mem_cons.1 h with h | h
            · simp only [Prod.mk.injEq] at h
              rw [h.1, h.2]
              exact ⟨by omega, by omega, hy, hyx, hon⟩
            · have := hp u v h
              exact ⟨this.1, by omega, this.2.2⟩
          · intro w hw1 hw2
            by_cases hw3 : w = y
            · exact ⟨x, y, List.mem_cons_self, Or.inr hw3.symm⟩
            · by_cases hw4 : w ≤ x'
              · obtain ⟨u, v, h, h'⟩ := hw w (by omega) hw4
                exact ⟨u, v, List.mem_cons_of_mem _ h, h'⟩
              · exact ⟨x, y, List.mem_cons_self, Or.inl (by omega)⟩
        · -- the last step repeats a point
          obtain ⟨n', rfl⟩ : ∃ n', n = n' + 1 := ⟨n - 1, by omega⟩
          have hx'' : x' = y := by omega
          have hxy : y + 1 = x := by omega
          rw [circleLoop, if_neg (by omega), hx'', hxy]
          refine ⟨_, [(x, y)], rfl, ?_, ?_, ?_⟩
          · intro a b
            rw [List.mem_append, List.mem_append, m1, m2]
            constructor
            · rintro ((h | h) | h)
              · exact ⟨x, y, List.mem_cons_self, Or.inl h⟩
              · exact ⟨x, y, List.mem_cons_self, Or.inr h⟩
              · exact ⟨x, y, List.mem_cons_self, Or.inr h⟩
            · rintro ⟨u, v, h, h'⟩
              simp only [List.mem_cons, Prod.mk.injEq, List.not_mem_nil, or_false] at h
              rw [h.1, h.2] at h'
              exact Or.inl h'
          · intro u v h
            simp only [List.mem_cons, Prod.mk.injEq, List.not_mem_nil, or_false] at h
            rw [h.1, h.2]
            exact ⟨by omega, by omega, hy, hyx, hon⟩
          · intro w hw1 hw2
            refine ⟨x, y, List.mem_cons_self, by omega⟩
      have sq : (y + 1) * (y + 1) = y * y + 2 * y + 1 := by ring
      by_cases hge : e + y + (y + 1) ≥ 0
      · rw [if_pos hge]
        rw [i16_of (x := x - 1) (by omega) (by omega), i16_of (x := e + y + (y + 1) - (x - 1)) (by omega) (by omega),
          i16_of (x := e + y + (y + 1) - (x - 1) - (x - 1)) (by omega) (by omega)]
        refine key (x - 1) _ (Or.inr rfl) (by omega) ?_ (by omega) (by omega) (by omega)
        have sq' : (x - 1) * (x - 1) = x * x - 2 * x + 1 := by ring
        omega
      · rw [if_neg hge]
        refine key x _ (Or.inl rfl) (by omega) ?_ (by omega) (by omega) (by omega)
        omega
    · rw [if_neg hlt]
      have hxy : y = x := by omega
      refine ⟨_, [(x, y)], rfl, ?_, ?_, ?_⟩
      · intro a b
        rw [m1]
        constructor
        · intro h
          exact ⟨x, y, List.mem_cons_self, Or.inl h⟩
        · rintro ⟨u, v, h, h'⟩
          simp only [List.mem_cons, Prod.mk.injEq, List.not_mem_nil, or_false] at h
          rw [h.1, h.2] at h'
          unfold Oct at h'
          omega
      · intro u v h
        simp only [List.mem_cons, Prod.mk.injEq, List.not_mem_nil, or_false] at h
        rw [h.1, h.2]
        exact ⟨by omega, by omega, hy, hyx, hon⟩
      · intro w hw1 hw2
        refine ⟨x, y, List.mem_cons_self, by omega⟩

/-- **C91** `drawCircle` ends and draws a circle. -/
theorem C91_circle (cx cy r : Int) (h0 : 1 ≤ r) (hr : r ≤ 16383) (h1 : -32768 ≤ cx - r) (h2 : cx + r < 32768) (h3 : -32768 ≤ cy - r)
    (h4 : cy + r < 32768) : ∃ l, drawCircle cx cy r = some l ∧ IsCircle l cx cy r := by
  obtain ⟨l, pts, hl, hm, hp, hw⟩ := circleLoop_spec cx cy r hr h1 h2 h3 h4 (r.toNat + 1) r 0 (-r) (by omega) (by omega) (by omega) (by omega)
    (by omega) (by omega) (by omega) (by omega)
  refine ⟨l, ?_, ?_, ?_, ?_, ?_⟩
  · unfold drawCircle
    rw [if_neg (by omega), i16_of (by omega) (by omega), i16_of (by omega) (by omega)]
    exact hl
  · intro x y h
    obtain ⟨u, v, h, h'⟩ := (hm _ _).1 h
    obtain ⟨p1, p2, p3, p4, p5⟩ := hp u v h
    have su : u * u = u.natAbs * u.natAbs := (Int.natAbs_mul_self' _).symm
    have sv : v * v = v.natAbs * v.natAbs := (Int.natAbs_mul_self' _).symm
    have sx : x * x = x.natAbs * x.natAbs := (Int.natAbs_mul_self' _).symm
    have sy : y * y = y.natAbs * y.natAbs := (Int.natAbs_mul_self' _).symm
    unfold Oct at h'
    rw [show cx + x - cx = x by omega, show cy + y - cy = y by omega] at h'
    unfold OnCircle
    rcases h' with ⟨a, b⟩ | ⟨a, b⟩
    · left
      rw [sx, sy, a, b, ← su, ← sv]
      exact p5
    · right
      rw [sx, sy, a, b, ← su, ← sv, show r * r - u * u - v * v = r * r - v * v - u * u by omega]
      exact p5
  · intro x y h
    obtain ⟨u, v, h, h'⟩ := (hm _ _).1 h
    unfold Oct at h'
    refine ⟨(hm _ _).2 ⟨u, v, h, ?_⟩, (hm _ _).2 ⟨u, v, h, ?_⟩, (hm _ _).2 ⟨u, v, h, ?_⟩⟩ <;> unfold Oct <;> omega
  · intro y hy1 hy2
    obtain ⟨u, v, h, h'⟩ := hw y.natAbs (by omega) (by omega)
    obtain ⟨p1, p2, p3, p4, p5⟩ := hp u v h
    rcases h' with h' | h'
    · refine ⟨v, (hm _ _).2 ⟨u, v, h, ?_⟩⟩
      unfold Oct
      omega
    · refine ⟨u, (hm _ _).2 ⟨u, v, h, ?_⟩⟩
      unfold Oct
      omega
  · intro x y h
    obtain ⟨u, v, h, h'⟩ := (hm _ _).1 h
    obtain ⟨p1, p2, p3, p4, p5⟩ := hp u v h
    unfold Oct at h'
    omega

example : (drawCircle 10 10 2).map List.eraseDups =
    some [(12, 10), (8, 10), (10, 12), (10, 8), (12, 11), (8, 9), (8, 11), (12, 9), (11, 12), (9, 8), (9, 12), (11, 8)] := by decide +kernel

/-! ## Filled areas -/

/-- **C93** `fillRectangle` sets the pixels of the rectangle that are on the display. -/
theorem C93_rectangle_partial (W H : Nat) (x y w h : Int) (hW : W ≤ 32767) (hH : H ≤ 32767) (h1 : 0 ≤ x) (h2 : 0 ≤ y) (h3 : x ≤ 32767)
    (h4 : y ≤ 32767) (a b : Int) : (a, b) ∈ fillRectangle W H x y w h ↔ (x ≤ a ∧ a < x + w ∧ a < W) ∧ (y ≤ b ∧ b < y + h ∧ b < H) := by
  unfold fillRectangle
  rw [u16_of h1 (by omega), u16_of h2 (by omega)]
  simp only [List.mem_flatMap, List.mem_map, List.mem_range]
  constructor
  · rintro ⟨i, hi, k, hk, he⟩
    rw [px_of (by omega) (by omega) (by omega) (by omega)] at he
    simp only [Prod.mk.injEq] at he
    omega
  · rintro ⟨ha, hb⟩
    refine ⟨(a - x).toNat, by omega, (b - y).toNat, by omega, ?_⟩
    rw [px_of (by omega) (by omega) (by omega) (by omega)]
    simp only [Prod.mk.injEq]
    omega

example : fillRectangle 8 8 6 2 4 2 = [(6, 2), (6, 3), (7, 2), (7, 3)] := by decide

/-- A rectangle that begins left of the display is not drawn at all, although a part of it is on the display. -/
theorem C93_rectangle_counterexample : fillRectangle 128 64 (-1) 0 10 10 = [] := by decide

/-- The pixels of the lines of one pass -/
theorem mem_fill4 (cx cy x y : Int) (hx : 0 ≤ x) (hy : 0 ≤ y) (hx' : x ≤ 16383) (hy' : y ≤ 16383) (h1 : -32768 ≤ cx - x) (h2 : cx + x < 32768)
    (h3 : -32768 ≤ cx - y) (h4 : cx + y < 32768) (h5 : -32768 ≤ cy - x) (h6 : cy + x < 32768) (h7 : -32768 ≤ cy - y) (h8 : cy + y < 32768)
    (a b : Int) :
    (a, b) ∈ drawVerticalLine (i16 (cx + x)) (i16 (cy - y)) (u16 (2 * y)) ++ drawVerticalLine (i16 (cx + y)) (i16 (cy - x)) (u16 (2 * x)) ++
        drawVerticalLine (i16 (cx - x)) (i16 (cy - y)) (u16 (2 * y)) ++ drawVerticalLine (i16 (cx - y)) (i16 (cy - x)) (u16 (2 * x)) ↔
      ((a - cx).natAbs = x.natAbs ∧ -y ≤ b - cy ∧ b - cy < y) ∨ ((a - cx).natAbs = y.natAbs ∧ -x ≤ b - cy ∧ b - cy < x) := by
  rw [i16_of (x := cx + x) (by omega) (by omega), i16_of (x := cy - y) (by omega) (by omega), i16_of (x := cx + y) (by omega) (by omega),
    i16_of (x := cy - x) (by omega) (by omega), i16_of (x := cx - x) (by omega) (by omega), i16_of (x := cx - y) (by omega) (by omega),
    u16_of (x := 2 * y) (by omega) (by omega), u16_of (x := 2 * x) (by omega) (by omega), List.mem_append, List.mem_append, List.mem_append,
    mem_vertical _ _ _ (by omega) (by omega) (by omega) (by omega) (by omega), mem_vertical _ _ _ (by omega) (by omega) (by omega) (by omega) (by omega),
    mem_vertical _ _ _ (by omega) (by omega) (by omega) (by omega) (by omega), mem_vertical _ _ _ (by omega) (by omega) (by omega) (by omega) (by omega)]
  omega

theorem fillCircleLoop_spec (cx cy r : Int) (hr : r ≤ 16382) (c1 : -32768 ≤ cx - r) (c2 : cx + r < 32768) (c3 : -32768 ≤ cy - r)
    (c4 : cy + r < 32768) :
    ∀ (n : Nat) (f x y : Int), 0 ≤ x → 0 ≤ y → x ≤ r → y ≤ r → (y - x).toNat < n → f = (x + 1) * (x + 1) + y * y - y - r * r →
      r * r ≤ x * x + y * y + y → (x < y → x * x + y * y - y ≤ r * r) →
      ∃ (l pts : List (Int × Int)) (xe ye : Int), fillCircleLoop cx cy n f (2 * x) (-2 * y) x y = some l ∧
        (∀ a b, (a, b) ∈ l ↔ ∃ u v, (u, v) ∈ pts ∧
          (((a - cx).natAbs = u.natAbs ∧ -v ≤ b - cy ∧ b - cy < v) ∨ ((a - cx).natAbs = v.natAbs ∧ -u ≤ b - cy ∧ b - cy < u))) ∧
        (∀ u v, (u, v) ∈ pts → (0 ≤ u ∧ u ≤ r) ∧ (0 ≤ v ∧ v ≤ r) ∧ u * u + v * v - v ≤ r * r + 1 ∧ u ≤ v + 1) ∧
        (∀ w, x < w → w ≤ xe → ∃ v, (w, v) ∈ pts ∧ r * r ≤ w * w + v * v + v) ∧
        (∀ c, ye < c → c ≤ y → ∃ u, ((u, c) ∈ pts ∨ (u = x ∧ c = y)) ∧ 0 ≤ u ∧ r * r ≤ (u + 1) * (u + 1) + c * c - c) ∧
        ye ≤ xe ∧ 0 ≤ ye ∧ x ≤ xe ∧ ye ≤ y := by
  intro n
  induction n with
  | zero => intro f x y _ _ _ _ h; omega
  | succ n ih =>
    intro f x y hx hy hxr hyr hn hf hlo hup
    rw [fillCircleLoop]
    by_cases hlt : x < y
    · have hup := hup hlt
      simp only [if_pos hlt]
      have sq : (x + 1) * (x + 1) = x * x + 2 * x + 1 := by ring
      have sq1 : (x + 1 + 1) * (x + 1 + 1) = x * x + 4 * x + 4 := by ring
      have sq2 : (y - 1) * (y - 1) = y * y - 2 * y + 1 := by ring
      -- one pass
      have key : ∀ (y' f' : Int), (y' = y ∧ f < 0 ∨ y' = y - 1 ∧ 0 ≤ f) → f' = (x + 1 + 1) * (x + 1 + 1) + y' * y' - y' - r * r →
          r * r ≤ (x + 1) * (x + 1) + y' * y' + y' → (x + 1) * (x + 1) + y' * y' - y' ≤ r * r + 1 →
          (x + 1 < y' → (x + 1) * (x + 1) + y' * y' - y' ≤ r * r) →
          ∃ (l pts : List (Int × Int)) (xe ye : Int), (fillCircleLoop cx cy n f' (2 * (x + 1)) (-2 * y') (x + 1) y').map (fun l =>
              drawVerticalLine (i16 (cx + (x + 1))) (i16 (cy - y')) (u16 (2 * y')) ++
              drawVerticalLine (i16 (cx + y')) (i16 (cy - (x + 1))) (u16 (2 * (x + 1))) ++
              drawVerticalLine (i16 (cx - (x + 1))) (i16 (cy - y')) (u16 (2 * y')) ++
              drawVerticalLine (i16 (cx - y')) (i16 (cy - (x + 1))) (u16 (2 * (x + 1))) ++ l) = some l ∧
            (∀ a b, (a, b) ∈ l ↔ ∃ u v, (u, v) ∈ pts ∧
              (((a - cx).natAbs = u.natAbs ∧ -v ≤ b - cy ∧ b - cy < v) ∨ ((a - cx).natAbs = v.natAbs ∧ -u ≤ b - cy ∧ b - cy < u))) ∧
            (∀ u v, (u, v) ∈ pts → (0 ≤ u ∧ u ≤ r) ∧ (0 ≤ v ∧ v ≤ r) ∧ u * u + v * v - v ≤ r * r + 1 ∧ u ≤ v + 1) ∧
            (∀ w, x < w → w ≤ xe → ∃ v, (w, v) ∈ pts ∧ r * r ≤ w * w + v * v + v) ∧
            (∀ c, ye < c → c ≤ y → ∃ u, ((u, c) ∈ pts ∨ (u = x ∧ c = y)) ∧ 0 ≤ u ∧ r * r ≤ (u + 1) * (u + 1) + c * c - c) ∧
            ye ≤ xe ∧ 0 ≤ ye ∧ x ≤ xe ∧ ye ≤ y := by
        intro y' f' hy' g1 g2 g3 g4
        obtain ⟨l, pts, xe, ye, hl, hm, hp, hw, hc, e1, e2, e3, e4⟩ := ih f' (x + 1) y' (by omega) (by omega) (by omega) (by omega) (by omega) g1 g2 g4
        refine ⟨_, (x + 1, y') :: pts, xe, ye, by rw [hl]; rfl, ?_, ?_, ?_, ?_, e1, e2, by omega, by omega⟩
        · intro a b
          rw [List.mem_append, hm, mem_fill4 cx cy (x + 1) y' (by omega) (by omega) (by omega) (by omega) (by omega) (by omega) (by omega) (by omega)
            (by omega) (by omega) (by omega) (by omega)]
          constructor
          · rintro (h | ⟨u, v, h, h'⟩)
            · exact ⟨x + 1, y', List.mem_cons_self, h⟩
            · exact ⟨u, v, List.mem_cons_of_mem _ h, h'⟩
          · rintro ⟨u, v, h, h'⟩
            rcases List.mem_cons.1 h with h | h
            · simp only [Prod.mk.injEq] at h
              rw [h.1, h.2] at h'
              exact Or.inl h'
            · exact Or.inr ⟨u, v, h, h'⟩
        · intro u v h
          rcases List.mem_cons.1 h with h | h
          · simp only [Prod.mk.injEq] at h
            rw [h.1, h.2]
            exact ⟨by omega, by omega, g3, by omega⟩
          · exact hp u v h
        · intro w hw1 hw2
          by_cases hw3 : w = x + 1
          · rw [hw3]
            exact ⟨y', List.mem_cons_self, g2⟩
          · obtain ⟨v, h, h'⟩ := hw w (by omega) hw2
            exact ⟨v, List.mem_cons_of_mem _ h, h'⟩
        · intro c hc1 hc2
          by_cases hc3 : c ≤ y'
          · obtain ⟨u, h, h'⟩ := hc c hc1 hc3
            refine ⟨u, Or.inl ?_, h'⟩
            rcases h with h | h
            · exact List.mem_cons_of_mem _ h
            · rw [h.1, h.2]
              exact List.mem_cons_self
          · refine ⟨x, Or.inr ⟨rfl, by omega⟩, hx, ?_⟩
            have : c = y := by omega
            rw [this]
            omega
      rw [u16_of (x := x + 1) (by omega) (by omega), i16_of (x := 2 * x + 2) (by omega) (by omega)]
      rw [show (2 * x + 2 : Int) = 2 * (x + 1) by omega]
      have hf1 : f ≤ 2 * x + 1 := by omega
      by_cases hge : f ≥ 0
      · simp only [if_pos hge]
        rw [u16_of (x := y - 1) (by omega) (by omega), i16_of (x := -2 * y + 2) (by omega) (by omega),
          i16_of (x := f + (-2 * y + 2)) (by omega) (by omega), i16_of (x := f + (-2 * y + 2) + (2 * (x + 1) + 1)) (by omega) (by omega),
          show (-2 * y + 2 : Int) = -2 * (y - 1) by omega]
        refine key (y - 1) _ (Or.inr ⟨rfl, hge⟩) ?_ ?_ ?_ ?_
        · omega
        · omega
        · omega
        · intro h
          omega
      · simp only [if_neg hge]
        rw [i16_of (x := f + (2 * (x + 1) + 1)) (by omega) (by omega)]
        refine key y _ (Or.inl ⟨rfl, by omega⟩) ?_ ?_ ?_ ?_
        · omega
        · omega
        · omega
        · intro h
          omega
    · rw [if_neg hlt]
      refine ⟨[], [], x, y, rfl, ?_, ?_, ?_, ?_, by omega, hy, le_refl _, le_refl _⟩
      · simp
      · simp
      · intro w h1 h2
        omega
      · intro w h1 h2
        omega

/-- **C93** (partial: the bottom row and the right ends are missing, see below) `fillCircle` ends; it fills every point nearer than `radius - 1` to the
centre, and nothing farther away than the radius plus half a pixel, up to rounding. -/
theorem C93_circle_partial (cx cy r : Int) (h0 : 1 ≤ r) (hr : r ≤ 16382) (h1 : -32768 ≤ cx - r) (h2 : cx + r < 32768) (h3 : -32768 ≤ cy - r)
    (h4 : cy + r < 32768) : ∃ l, fillCircle cx cy r = some l ∧
      (∀ a b, a * a + b * b ≤ (r - 1) * (r - 1) → (cx + a, cy + b) ∈ l) ∧
      (∀ a b, (cx + a, cy + b) ∈ l → a * a + b * b ≤ r * r + r + 1) := by
  obtain ⟨l, pts, xe, ye, hl, hm, hp, hw, hc, e1, e2, e3, e4⟩ := fillCircleLoop_spec cx cy r hr h1 h2 h3 h4 (r.toNat + 1) (1 - r) 0 r (by omega) (by omega)
    (by omega) (by omega) (by omega) (by omega) (by omega) (by omega)
  have hv := mem_vertical cx (cy - r) (2 * r) (by omega) (by omega) (by omega) (by omega) (by omega)
  have hsq : ∀ a : Int, a * a = a.natAbs * a.natAbs := fun a => (Int.natAbs_mul_self' a).symm
  refine ⟨drawVerticalLine cx (cy - r) (2 * r) ++ l, ?_, ?_, ?_⟩
  · unfold fillCircle
    rw [i16_of (x := 1 - r) (by omega) (by omega), i16_of (x := -2 * r) (by omega) (by omega), i16_of (x := cy - r) (by omega) (by omega),
      u16_of (x := 2 * r) (by omega) (by omega)]
    rw [show (2 * 0 : Int) = 0 by rfl] at hl
    rw [hl]
    rfl
  · intro a b hab
    have sq : (r - 1) * (r - 1) = r * r - 2 * r + 1 := by ring
    have hb : (b.natAbs : Int) ≤ r - 1 := by
      by_contra hcon
      have := Int.mul_le_mul (show r ≤ (b.natAbs : Int) by omega) (show r ≤ (b.natAbs : Int) by omega) (by omega) (by omega)
      have ha := mul_self_nonneg a
      rw [hsq b] at hab
      omega
    have ha : (a.natAbs : Int) ≤ r - 1 := by
      by_contra hcon
      have := Int.mul_le_mul (show r ≤ (a.natAbs : Int) by omega) (show r ≤ (a.natAbs : Int) by omega) (by omega) (by omega)
      have ha := mul_self_nonneg b
      rw [hsq a] at hab
      omega
    rw [List.mem_append]
    by_cases ha0 : a = 0
    · left
      rw [hv]
      omega
    right
    rw [hm]
    by_cases hax : (a.natAbs : Int) ≤ xe
    · obtain ⟨v, hv1, hv2⟩ := hw a.natAbs (by omega) hax
      refine ⟨_, _, hv1, Or.inl ⟨by omega, ?_⟩⟩
      obtain ⟨_, hv3, _⟩ := hp _ _ hv1
      have : (b.natAbs : Int) < v := by
        by_contra hcon
        have := Int.mul_le_mul (show v ≤ (b.natAbs : Int) by omega) (show v ≤ (b.natAbs : Int) by omega) (by omega) (by omega)
        rw [hsq a, hsq b] at hab
        omega
      omega
    · obtain ⟨u, hu1, hu2, hu3⟩ := hc a.natAbs (by omega) (by omega)
      have : (b.natAbs : Int) < u := by
        by_contra hcon
        have hm := Int.mul_le_mul (show u + 1 ≤ (b.natAbs : Int) + 1 by omega) (show u + 1 ≤ (b.natAbs : Int) + 1 by omega) (by omega) (by omega)
        rw [show ((b.natAbs : Int) + 1) * ((b.natAbs : Int) + 1) = (b.natAbs : Int) * (b.natAbs : Int) + 2 * (b.natAbs : Int) + 1 by ring] at hm
        rw [hsq a, hsq b] at hab
        omega
      rcases hu1 with hu1 | hu1
      · refine ⟨_, _, hu1, Or.inr ⟨by omega, by omega⟩⟩
      · omega
  · intro a b hab
    rw [List.mem_append] at hab
    rcases hab with hab | hab
    · rw [hv] at hab
      have ha : a = 0 := by omega
      have := Int.mul_le_mul (show (b.natAbs : Int) ≤ r by omega) (show (b.natAbs : Int) ≤ r by omega) (by omega) (by omega)
      rw [hsq b, ha]
      omega
    · obtain ⟨u, v, huv, h⟩ := (hm _ _).1 hab
      obtain ⟨hu, hv', hb, huv'⟩ := hp u v huv
      rw [show cx + a - cx = a by omega, show cy + b - cy = b by omega] at h
      rcases h with h | h
      · have := Int.mul_le_mul (show (b.natAbs : Int) ≤ v by omega) (show (b.natAbs : Int) ≤ v by omega) (by omega) (by omega)
        rw [hsq b, hsq a, h.1, ← hsq u]
        omega
      · have := Int.mul_le_mul (show (b.natAbs : Int) ≤ u by omega) (show (b.natAbs : Int) ≤ u by omega) (by omega) (by omega)
        rw [hsq b, hsq a, h.1, ← hsq v]
        omega

example : (fillCircle 10 10 2).map List.eraseDups = some [(10, 8), (10, 9), (10, 10), (10, 11), (11, 8), (11, 9), (11, 10), (11, 11),
    (12, 9), (12, 10), (9, 8), (9, 9), (9, 10), (9, 11), (8, 9), (8, 10)] := by decide +kernel

/-- The filled circle does not contain the circle with the same centre and radius: the bottom row is not filled. -/
theorem C93_circle_counterexample :
    ∃ l m, fillCircle 10 10 3 = some l ∧ drawCircle 10 10 3 = some m ∧ (10, 13) ∈ m ∧ (10, 13) ∉ l ∧ (10, 7) ∈ l :=
  ⟨_, _, rfl, rfl, by decide +kernel, by decide +kernel, by decide +kernel⟩

/-! ## Rounded rectangles -/

theorem mem_corners (x y w h r u v : Int) (hx : -32768 ≤ x) (hy : -32768 ≤ y) (hw : x + w ≤ 32767) (hh : y + h ≤ 32767)
    (h1 : 2 * r ≤ w) (h2 : 2 * r ≤ h) (hu : 0 ≤ u) (hur : u ≤ r) (hv : 0 ≤ v) (hvr : v ≤ r) (a b : Int) :
    (a, b) ∈ corners x y w h r u v ↔
      ((a = x + r - u ∨ a = x + w - r + u) ∧ (b = y + r - v ∨ b = y + h - r + v)) ∨
      ((a = x + r - v ∨ a = x + w - r + v) ∧ (b = y + r - u ∨ b = y + h - r + u)) := by
  unfold corners
  rw [px_of (x := x + r - u) (y := y + r - v) (by omega) (by omega) (by omega) (by omega),
    px_of (x := x + r - u) (y := y + h - r + v) (by omega) (by omega) (by omega) (by omega),
    px_of (x := x + r - v) (y := y + r - u) (by omega) (by omega) (by omega) (by omega),
    px_of (x := x + r - v) (y := y + h - r + u) (by omega) (by omega) (by omega) (by omega),
    px_of (x := x + w - r + u) (y := y + r - v) (by omega) (by omega) (by omega) (by omega),
    px_of (x := x + w - r + u) (y := y + h - r + v) (by omega) (by omega) (by omega) (by omega),
    px_of (x := x + w - r + v) (y := y + r - u) (by omega) (by omega) (by omega) (by omega),
    px_of (x := x + w - r + v) (y := y + h - r + u) (by omega) (by omega) (by omega) (by omega)]
  simp only [List.mem_cons, Prod.mk.injEq, List.not_mem_nil, or_false]
  tauto

theorem roundedLoop_spec (x y w h r : Int) (hr : r ≤ 8188) :
    ∀ (n : Nat) (u v f : Int), 0 ≤ u → u ≤ v → v ≤ r → (v - u).toNat + 2 ≤ n → f = 2 * ((u + 1) * (u + 1) + v * v - v - r * r) + 1 →
      (u * u + v * v - r * r).natAbs ≤ v.natAbs →
      ∃ (l pts : List (Int × Int)), roundedLoop x y w h r n u v f = some l ∧
        (∀ p, p ∈ l ↔ ∃ s t, (s, t) ∈ pts ∧ p ∈ corners x y w h r s t) ∧
        (∀ s t, (s, t) ∈ pts → 0 ≤ s ∧ s ≤ t ∧ t ≤ r ∧ (s * s + t * t - r * r).natAbs ≤ t.natAbs) ∧
        (∀ q, u ≤ q → q ≤ v → ∃ s t, (s, t) ∈ pts ∧ (s = q ∨ t = q)) ∧ (u, v) ∈ pts := by
  intro n
  induction n with
  | zero => intro u v f _ _ _ h; omega
  | succ n ih =>
    intro u v f hu huv hvr hn hf hD
    have sq : (u + 1) * (u + 1) = u * u + 2 * u + 1 := by ring
    have sq1 : (u + 1 + 1) * (u + 1 + 1) = u * u + 4 * u + 4 := by ring
    have sq2 : (v - 1) * (v - 1) = v * v - 2 * v + 1 := by ring
    rw [roundedLoop, if_pos huv]
    have key : ∀ (v' f' : Int), (v' = v ∧ f < 0 ∨ v' = v - 1 ∧ 0 ≤ f) → f' = 2 * ((u + 1 + 1) * (u + 1 + 1) + v' * v' - v' - r * r) + 1 →
        (u + 1 ≤ v' → ((u + 1) * (u + 1) + v' * v' - r * r).natAbs ≤ v'.natAbs) →
        ∃ (l pts : List (Int × Int)), (roundedLoop x y w h r n (u + 1) v' f').map (fun l => corners x y w h r u v ++ l) = some l ∧
          (∀ p, p ∈ l ↔ ∃ s t, (s, t) ∈ pts ∧ p ∈ corners x y w h r s t) ∧
          (∀ s t, (s, t) ∈ pts → 0 ≤ s ∧ s ≤ t ∧ t ≤ r ∧ (s * s + t * t - r * r).natAbs ≤ t.natAbs) ∧
          (∀ q, u ≤ q → q ≤ v → ∃ s t, (s, t) ∈ pts ∧ (s = q ∨ t = q)) ∧ (u, v) ∈ pts := by
      intro v' f' hv' g1 g2
      by_cases hend : u + 1 ≤ v'
      · obtain ⟨l, pts, hl, hm, hp, hw, _⟩ := ih (u + 1) v' f' (by omega) hend (by omega) (by omega) g1 (g2 hend)
        refine ⟨_, (u, v) :: pts, by rw [hl]; rfl, ?_, ?_, ?_, List.mem_cons_self⟩
        · intro p
          rw [List.mem_append, hm]
          constructor
          · rintro (h | ⟨s, t, h, h'⟩)
            · exact ⟨u, v, List.mem_cons_self, h⟩
            · exact ⟨s, t, List.mem_cons_of_mem _ h, h'⟩
          · rintro ⟨s, t, h, h'⟩
            rcases List.mem_cons.1 h with h | h
            · simp only [Prod.mk.injEq] at h
              rw [h.1, h.2] at h'
              exact Or.inl h'
            · exact Or.inr ⟨s, t, h, h'⟩
        · intro s t h
          rcases List.mem_cons.1 h with h | h
          · simp only [Prod.mk.injEq] at h
            rw [h.1, h.2]
            exact ⟨hu, huv, hvr, hD⟩
          · exact hp s t h
        · intro q hq1 hq2
          by_cases hq3 : q = u
          · exact ⟨u, v, List.mem_cons_self, Or.inl hq3.symm⟩
          · by_cases hq4 : q ≤ v'
            · obtain ⟨s, t, h, h'⟩ := hw q (by omega) hq4
              exact ⟨s, t, List.mem_cons_of_mem _ h, h'⟩
            · exact ⟨u, v, List.mem_cons_self, Or.inr (by omega)⟩
      · obtain ⟨n', rfl⟩ : ∃ n', n = n' + 1 := ⟨n - 1, by omega⟩
        rw [roundedLoop, if_neg (by omega)]
        refine ⟨_, [(u, v)], rfl, ?_, ?_, ?_, List.mem_cons_self⟩
        · intro p
          simp
        · intro s t h
          simp only [List.mem_cons, Prod.mk.injEq, List.not_mem_nil, or_false] at h
          rw [h.1, h.2]
          exact ⟨hu, huv, hvr, hD⟩
        · intro q hq1 hq2
          exact ⟨u, v, List.mem_cons_self, by omega⟩
    have iu : i16 (u + 1) = u + 1 := i16_of (by omega) (by omega)
    by_cases hneg : f < 0
    · rw [if_pos hneg, iu, i16_of (x := f + (4 * u + 6)) (by omega) (by omega)]
      refine key v _ (Or.inl ⟨rfl, hneg⟩) ?_ ?_
      · omega
      · intro _
        omega
    · rw [if_neg hneg, iu, i16_of (x := v - 1) (by omega) (by omega), i16_of (x := f + (4 * (u - v) + 10)) (by omega) (by omega)]
      refine key (v - 1) _ (Or.inr ⟨rfl, by omega⟩) ?_ ?_
      · omega
      · intro _
        omega

/-- **C94** (partial: it is one pixel too wide and too high) `drawRoundedRectangle` ends and draws a rounded rectangle with one column and one row more
than asked for. -/
theorem C94_rounded_partial (x y w h r : Int) (h0 : 1 ≤ r) (hr : r ≤ 8188) (hx : -32768 ≤ x) (hy : -32768 ≤ y) (hw : x + w ≤ 32767)
    (hh : y + h ≤ 32767) (h1 : 2 * r ≤ w) (h2 : 2 * r ≤ h) :
    ∃ l, drawRoundedRectangle x y w h r = some l ∧ IsRounded l x y (w + 1) (h + 1) r := by
  obtain ⟨l, pts, hl, hm, hp, hq, h00⟩ := roundedLoop_spec x y w h r hr (r.toNat + 2) 0 r (3 - 2 * r) (by omega) (by omega) (by omega) (by omega)
    (by omega) (by omega)
  have m := fun s t (hs : (s, t) ∈ pts) a b => mem_corners x y w h r s t hx hy hw hh h1 h2 (hp s t hs).1
    (by have := hp s t hs; omega) (by have := hp s t hs; omega) (hp s t hs).2.2.1 a b
  have v1 := mem_horizontal (x + r) y (w - 2 * r) (by omega) (by omega) (by omega) (by omega) (by omega)
  have v2 := mem_horizontal (x + r) (y + h) (w - 2 * r) (by omega) (by omega) (by omega) (by omega) (by omega)
  have v3 := mem_vertical x (y + r) (h - 2 * r) (by omega) (by omega) (by omega) (by omega) (by omega)
  have v4 := mem_vertical (x + w) (y + r) (h - 2 * r) (by omega) (by omega) (by omega) (by omega) (by omega)
  have hmem : ∀ a b, (a, b) ∈ l ++ drawHorizontalLine (x + r) y (w - 2 * r) ++ drawHorizontalLine (x + r) (y + h) (w - 2 * r) ++
      drawVerticalLine x (y + r) (h - 2 * r) ++ drawVerticalLine (x + w) (y + r) (h - 2 * r) ↔
      (∃ s t, (s, t) ∈ pts ∧ (((a = x + r - s ∨ a = x + w - r + s) ∧ (b = y + r - t ∨ b = y + h - r + t)) ∨
        ((a = x + r - t ∨ a = x + w - r + t) ∧ (b = y + r - s ∨ b = y + h - r + s)))) ∨
      ((x + r ≤ a ∧ a < x + r + (w - 2 * r)) ∧ (b = y ∨ b = y + h)) ∨ ((a = x ∨ a = x + w) ∧ (y + r ≤ b ∧ b < y + r + (h - 2 * r))) := by
    intro a b
    rw [List.mem_append, List.mem_append, List.mem_append, List.mem_append, v1, v2, v3, v4, hm]
    constructor
    · rintro ((((⟨s, t, hs, h⟩ | h) | h) | h) | h)
      · exact Or.inl ⟨s, t, hs, (m s t hs a b).1 h⟩
      all_goals (right; omega)
    · rintro (⟨s, t, hs, h⟩ | h)
      · exact Or.inl (Or.inl (Or.inl (Or.inl ⟨s, t, hs, (m s t hs a b).2 h⟩)))
      · omega
  refine ⟨l ++ drawHorizontalLine (x + r) y (w - 2 * r) ++ drawHorizontalLine (x + r) (y + h) (w - 2 * r) ++
    drawVerticalLine x (y + r) (h - 2 * r) ++ drawVerticalLine (x + w) (y + r) (h - 2 * r), ?_, ?_, ?_, ?_, ?_, ?_⟩
  · unfold drawRoundedRectangle
    rw [i16_of (x := r) (by omega) (by omega), i16_of (x := 3 - 2 * r) (by omega) (by omega), hl, i16_of (x := x + r) (by omega) (by omega),
      i16_of (x := y + h) (by omega) (by omega), i16_of (x := y + r) (by omega) (by omega), i16_of (x := x + w) (by omega) (by omega),
      u16_of (x := w - 2 * r) (by omega) (by omega), u16_of (x := h - 2 * r) (by omega) (by omega), Option.map_some, if_neg (by omega), List.nil_append]
  · intro a b hab
    rcases (hmem a b).1 hab with ⟨s, t, hs, h⟩ | h | h
    · obtain ⟨p1, p2, p3, p4⟩ := hp s t hs
      right; right
      rcases h with h | h
      · refine ⟨s, t, by omega, by omega, Or.inr ?_, by omega, by omega⟩
        rw [← Int.natAbs_neg, show -(r * r - t * t - s * s) = s * s + t * t - r * r by ring]
        exact p4
      · refine ⟨t, s, by omega, by omega, Or.inl ?_, by omega, by omega⟩
        rw [← Int.natAbs_neg, show -(r * r - s * s - t * t) = s * s + t * t - r * r by ring]
        exact p4
    · left
      omega
    · right; left
      omega
  · intro a ha1 ha2
    rw [hmem, hmem]
    by_cases ha : a < x + r + (w - 2 * r)
    · exact ⟨by right; omega, by right; omega⟩
    · exact ⟨Or.inl ⟨0, r, h00, by omega⟩, Or.inl ⟨0, r, h00, by omega⟩⟩
  · intro b hb1 hb2
    rw [hmem, hmem]
    by_cases hb : b < y + r + (h - 2 * r)
    · exact ⟨by right; omega, by right; omega⟩
    · exact ⟨Or.inl ⟨0, r, h00, by omega⟩, Or.inl ⟨0, r, h00, by omega⟩⟩
  · intro u hu1 hu2
    obtain ⟨s, t, hs, h⟩ := hq u (by omega) (by omega)
    obtain ⟨p1, p2, p3, p4⟩ := hp s t hs
    rcases h with h | h
    · exact ⟨t, by omega, fun a b ha hb => (hmem a b).2 (Or.inl ⟨s, t, hs, by omega⟩)⟩
    · exact ⟨s, by omega, fun a b ha hb => (hmem a b).2 (Or.inl ⟨s, t, hs, by omega⟩)⟩
  · intro u hu1 hu2
    obtain ⟨s, t, hs, h⟩ := hq u (by omega) (by omega)
    obtain ⟨p1, p2, p3, p4⟩ := hp s t hs
    rcases h with h | h
    · exact ⟨t, by omega, fun a b ha hb => (hmem a b).2 (Or.inl ⟨s, t, hs, by omega⟩)⟩
    · exact ⟨s, by omega, fun a b ha hb => (hmem a b).2 (Or.inl ⟨s, t, hs, by omega⟩)⟩

/-- A rounded rectangle with width 10 has pixels in the eleventh column; with radius 0 it is drawn twice, in both sizes. -/
theorem C94_rounded_counterexample :
    ∃ l m, drawRoundedRectangle 0 0 10 10 2 = some l ∧ (10, 5) ∈ l ∧ ¬ OnRounded 0 0 10 10 2 10 5 ∧
      drawRoundedRectangle 0 0 10 10 0 = some m ∧ (9, 5) ∈ m ∧ (10, 5) ∈ m := by
  refine ⟨_, _, rfl, by decide +kernel, ?_, rfl, by decide +kernel, by decide +kernel⟩
  rintro (h | h | ⟨u, v, h1, h2, h3, h4, h5⟩)
  all_goals omega

example : (drawRoundedRectangle 0 0 4 4 2).map List.eraseDups =
    some [(2, 0), (2, 4), (0, 2), (4, 2), (1, 0), (1, 4), (0, 1), (0, 3), (3, 0), (3, 4), (4, 1), (4, 3)] := by decide +kernel

end Props.Display
