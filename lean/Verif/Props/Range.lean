import Verif.Model.Range
import Verif.Props.Filter
set_option autoImplicit false
/- Property C32. -/
namespace Props
open Modm.Range Modm.Saturated
open Modm.Filter (store)

/-- specification: `start, start + step, ...`, `n` terms -/
def progression (start step : Int) (n : Nat) : List Int := (List.range n).map fun (k : Nat) => start + (k : Int) * step

theorem progression_succ (start step : Int) (n : Nat) :
    progression start step (n + 1) = start :: progression (start + step) step n := by
  unfold progression
  rw [List.range_succ_eq_map, List.map_cons, List.map_map]
  refine congrArg₂ List.cons (by simp) ?_
  apply List.map_congr_left
  intro k _
  simp only [Function.comp, Nat.cast_succ]; ring

theorem loop_mono (t : Ty) (r : R) (f : Nat) (v : Int) (l : List Int) (h : loop t r f v = some l) :
    ∀ g, f ≤ g → loop t r g v = some l := by
  induction f generalizing v l with
  | zero => simp [loop] at h
  | succ f ih =>
    intro g hg
    obtain ⟨g, rfl⟩ : ∃ k, g = k + 1 := ⟨g - 1, by omega⟩
    unfold loop at h ⊢
    split
    · rename_i hne
      rw [if_pos hne] at h
      simp only [Option.bind_eq_bind] at h ⊢
      obtain ⟨v', h1, h⟩ := Option.bind_eq_some_iff.1 h
      obtain ⟨l', h2, h⟩ := Option.bind_eq_some_iff.1 h
      rw [h1, Option.bind_some, ih v' l' h2 g (by omega), Option.bind_some, h]
    · rename_i hne
      rw [if_neg hne] at h
      exact h

/-- what is visited is unique -/
theorem visits_unique (t : Ty) (r : R) (l l' : List Int) (h : Visits t r l) (h' : Visits t r l') : l = l' := by
  obtain ⟨f, hf⟩ := h; obtain ⟨g, hg⟩ := h'
  have h1 := loop_mono t r f _ l hf (max f g) (le_max_left _ _)
  have h2 := loop_mono t r g _ l' hg (max f g) (le_max_right _ _)
  rw [h1] at h2; exact Option.some.inj h2

theorem loop_up (t : Ty) (ht : 0 < t.bits) (r : R) (hs : 0 < r.step) (n : Nat) (v : Int) (hv : r.start ≤ v)
    (h1 : ∀ k : Nat, k < n → v + k * r.step < r.stop) (h2 : r.stop ≤ v + n * r.step)
    (hf : ∀ k : Nat, k < n → t.fits (v + (k + 1) * r.step)) : loop t r (n + 1) v = some (progression v r.step n) := by
  induction n generalizing v with
  | zero =>
    unfold loop
    have : ne r v = false := by unfold ne; rw [if_pos hs]; simp at h2 ⊢; omega
    rw [this]; rfl
  | succ n ih =>
    unfold loop
    have h0 := h1 0 (by omega)
    have hf0 := hf 0 (by omega)
    simp only [Nat.cast_zero, Int.zero_mul, Int.add_zero, Int.zero_add, Int.one_mul] at h0 hf0
    have : ne r v = true := by unfold ne; rw [if_pos hs]; simp; omega
    rw [if_pos this, store_fits t ht _ hf0, progression_succ]
    simp only [Option.bind_eq_bind, Option.bind_some]
    rw [ih (v + r.step) (by omega)]
    · rfl
    · intro k hk
      have := h1 (k + 1) (by omega)
      push_cast at this; linarith
    · push_cast at h2; linarith
    · intro k hk
      have := hf (k + 1) (by omega)
      rw [show v + r.step + ((k : Int) + 1) * r.step = v + (((k + 1 : Nat) : Int) + 1) * r.step by push_cast; ring]
      exact this

theorem loop_down (t : Ty) (ht : 0 < t.bits) (r : R) (hs : r.step < 0) (n : Nat) (v : Int) (hv : v ≤ r.start)
    (h1 : ∀ k : Nat, k < n → r.stop < v + k * r.step) (h2 : v + n * r.step ≤ r.stop)
    (hf : ∀ k : Nat, k < n → t.fits (v + (k + 1) * r.step)) : loop t r (n + 1) v = some (progression v r.step n) := by
  induction n generalizing v with
  | zero =>
    unfold loop
    have : ne r v = false := by unfold ne; rw [if_neg (by omega)]; simp at h2 ⊢; omega
    rw [this]; rfl
  | succ n ih =>
    unfold loop
    have h0 := h1 0 (by omega)
    have hf0 := hf 0 (by omega)
    simp only [Nat.cast_zero, Int.zero_mul, Int.add_zero, Int.zero_add, Int.one_mul] at h0 hf0
    have : ne r v = true := by unfold ne; rw [if_neg (by omega)]; simp; omega
    rw [if_pos this, store_fits t ht _ hf0, progression_succ]
    simp only [Option.bind_eq_bind, Option.bind_some]
    rw [ih (v + r.step) (by omega)]
    · rfl
    · intro k hk
      have := h1 (k + 1) (by omega)
      push_cast at this; linarith
    · push_cast at h2; linarith
    · intro k hk
      have := hf (k + 1) (by omega)
      rw [show v + r.step + ((k : Int) + 1) * r.step = v + (((k + 1 : Nat) : Int) + 1) * r.step by push_cast; ring]
      exact this

/-- C32 (partial), ascending and descending: `range(start, stop, step)` visits exactly the `n` terms of the progression
that lie before `stop`, provided each term's successor is representable. Missing: the successor of the last term
not being representable, where the loop may not terminate (`C32_range_wraps_forever`). -/
theorem C32_range_partial (t : Ty) (ht : 0 < t.bits) (start stop step : Int) (n : Nat)
    (hdir : (0 < step ∧ start ≤ stop ∧ (∀ k : Nat, k < n ↔ start + k * step < stop)) ∨
      (step < 0 ∧ stop ≤ start ∧ (∀ k : Nat, k < n ↔ stop < start + k * step)))
    (hf : ∀ k : Nat, k < n → t.fits (start + (k + 1) * step)) :
    Visits t (range3 start stop step) (progression start step n) := by
  have hv : validate start stop step = true := by
    unfold validate; rcases hdir with ⟨a, b, _⟩ | ⟨a, b, _⟩ <;> simp <;> omega
  have hr : range3 start stop step = ⟨start, stop, step⟩ := by simp [range3, mk, hv]
  rw [hr]
  refine ⟨n + 1, ?_⟩
  rcases hdir with ⟨a, b, c⟩ | ⟨a, b, c⟩
  · refine loop_up t ht _ a n start (Int.le_refl _) (fun k hk => (c k).1 hk) ?_ hf
    have := (c n).not.1 (by omega)
    simp only; omega
  · refine loop_down t ht _ a n start (Int.le_refl _) (fun k hk => (c k).1 hk) ?_ hf
    have := (c n).not.1 (by omega)
    simp only; omega

/-- C32: with step one (`range(stop)`, `range(start, stop)`) there is no exception: all of `start, ..., stop - 1` are
visited for every type and every pair of representable bounds, nothing if `stop ≤ start`. -/
theorem C32_range_step_one (t : Ty) (ht : 0 < t.bits) (start stop : Int) (h1 : t.fits start) (h2 : t.fits stop) :
    Visits t (range2 start stop) (progression start 1 (stop - start).toNat) := by
  unfold Ty.fits at h1 h2
  by_cases h : start ≤ stop
  · apply C32_range_partial t ht start stop 1
    · left; refine ⟨by decide, h, ?_⟩
      intro k; omega
    · intro k hk; unfold Ty.fits; omega
  · have hz : (stop - start).toNat = 0 := by omega
    rw [hz]
    refine ⟨1, ?_⟩
    have : validate start stop 1 = false := by unfold validate; simp; omega
    simp [range2, mk, this, loop, ne, progression]

/-- C32: direction mismatch or zero step gives an empty range. -/
theorem C32_range_empty (t : Ty) (start stop step : Int)
    (h : step = 0 ∨ (stop ≤ start ∧ 0 < step) ∨ (start ≤ stop ∧ step < 0)) :
    Visits t (range3 start stop step) [] := by
  refine ⟨1, ?_⟩
  simp only [range3, mk, loop]
  by_cases hv : validate start stop step = true
  · have he : start = stop := by
      unfold validate at hv; simp at hv; omega
    simp only [hv, if_true, ne]
    split <;> simp_all
  · simp only [hv, ne]
    simp

/-- C32 is false in general: `range(uint8_t(0), uint8_t(255), uint8_t(2))` never terminates (254 + 2 wraps to 0). -/
theorem C32_range_wraps_forever (l : List Int) : ¬ Visits ⟨false, 8⟩ (range3 0 255 2) l := by
  rintro ⟨f, h⟩
  have hr : range3 0 255 2 = ⟨0, 255, 2⟩ := by decide
  rw [hr] at h
  have key : ∀ (f : Nat) (v : Int) (l : List Int), 0 ≤ v → v ≤ 254 → v % 2 = 0 → loop ⟨false, 8⟩ ⟨0, 255, 2⟩ f v ≠ some l := by
    intro f
    induction f with
    | zero => intro v l _ _ _ h; simp [loop] at h
    | succ f ih =>
      intro v l h1 h2 h3 h
      unfold loop at h
      have hne : ne ⟨0, 255, 2⟩ v = true := by simp [ne]; omega
      have hst : store ⟨false, 8⟩ (v + 2) = some ((v + 2) % 256) := by simp [store, Ty.wrap]
      rw [if_pos hne] at h
      simp only [hst, Option.bind_eq_bind, Option.bind_some] at h
      obtain ⟨l', h4, _⟩ := Option.bind_eq_some_iff.1 h
      exact ih ((v + 2) % 256) l' (by omega) (by omega) (by omega) h4
  exact key f 0 l (by decide) (by decide) (by decide) h

/-- C32: and it may visit wrong values before terminating. -/
theorem C32_range_wrong_values : Visits ⟨false, 8⟩ (range3 0 200 150) [0, 150, 44, 194, 88] := ⟨6, by decide⟩

example : Visits ⟨true, 8⟩ (range3 10 (-10) (-6)) [10, 4, -2, -8] := ⟨5, by decide⟩

end Props
