import Verif.Model.Interp
import Verif.Props.Saturated
import Mathlib.Tactic.Linarith
import Mathlib.Tactic.Ring
import Mathlib.Algebra.Order.Ring.Int
import Mathlib.Algebra.Order.Ring.Abs
set_option autoImplicit false
/- Property C35 (linear interpolation). -/
namespace Props
open Modm.Interp Modm.Saturated

/-- Conditions on one segment under which the computation is exact. `it`: type of the inputs, `ot` of the outputs. -/
structure GoodSegment (it ot : Ty) (p q : Int × Int) : Prop where
  lt : p.1 < q.1
  x1 : it.fits p.1
  x2 : it.fits q.1
  /-- the distance of the inputs is representable (always true for unsigned inputs) -/
  dist : it.fits (q.1 - p.1)
  y1 : ot.fits p.2
  y2 : ot.fits q.2
  /-- the outputs are representable in the signed type of the same width -/
  s1 : (signedTy ot).fits p.2
  s2 : (signedTy ot).fits q.2
  /-- for 32-bit outputs, the output distance fits -/
  diff : ot.bits < 32 ∨ (signedTy ot).fits (q.2 - p.2)
  /-- the product fits `common it wide` -/
  prod : (q.1 - p.1) * |q.2 - p.2| ≤ (common it (wideTy ot)).max

/-- integer linear interpolation with rounding towards the left neighbour's output -/
def linear (p q : Int × Int) (v : Int) : Int := p.2 + ((v - p.1) * (q.2 - p.2)).tdiv (q.1 - p.1)

/-- `linear` starts at `p`, ends at `q` -/
theorem linear_ends (p q : Int × Int) (h : p.1 < q.1) : linear p q p.1 = p.2 ∧ linear p q q.1 = q.2 := by
  unfold linear
  constructor
  · simp
  · rw [Int.mul_tdiv_cancel_left _ (by omega)]; omega

/-- `linear` stays between the two outputs -/
theorem linear_between (p q : Int × Int) (h : p.1 < q.1) (v : Int) (h1 : p.1 ≤ v) (h2 : v ≤ q.1) :
    min p.2 q.2 ≤ linear p q v ∧ linear p q v ≤ Max.max p.2 q.2 := by
  unfold linear
  have hc : 0 < q.1 - p.1 := by omega
  rcases le_total p.2 q.2 with hy | hy
  · have hn : 0 ≤ (v - p.1) * (q.2 - p.2) := mul_nonneg (by omega) (by omega)
    have hle : ((v - p.1) * (q.2 - p.2)).tdiv (q.1 - p.1) ≤ q.2 - p.2 := by
      rw [Int.tdiv_eq_ediv_of_nonneg hn]
      apply Int.ediv_le_of_le_mul hc
      nlinarith
    have hge : 0 ≤ ((v - p.1) * (q.2 - p.2)).tdiv (q.1 - p.1) := Int.tdiv_nonneg hn (by omega)
    rw [min_eq_left hy, max_eq_right hy]; omega
  · have hn : 0 ≤ (v - p.1) * (p.2 - q.2) := mul_nonneg (by omega) (by omega)
    have e : ((v - p.1) * (q.2 - p.2)).tdiv (q.1 - p.1) = -(((v - p.1) * (p.2 - q.2)).tdiv (q.1 - p.1)) := by
      rw [← Int.neg_tdiv]; congr 1; ring
    have hle : ((v - p.1) * (p.2 - q.2)).tdiv (q.1 - p.1) ≤ p.2 - q.2 := by
      rw [Int.tdiv_eq_ediv_of_nonneg hn]
      apply Int.ediv_le_of_le_mul hc
      nlinarith
    have hge : 0 ≤ ((v - p.1) * (p.2 - q.2)).tdiv (q.1 - p.1) := Int.tdiv_nonneg hn (by omega)
    rw [min_eq_right hy, max_eq_left hy, e]; omega

/-- supported type pairs: inputs narrower than 32 bits or signed, outputs of 8, 16 or 32 bits -/
def Pair (it ot : Ty) : Prop :=
  (it ∈ [⟨false, 8⟩, ⟨true, 8⟩, ⟨false, 16⟩, ⟨true, 16⟩, (⟨true, 32⟩ : Ty)] ∧ ot ∈ [⟨false, 8⟩, ⟨true, 8⟩, ⟨false, 16⟩, ⟨true, 16⟩, (⟨true, 32⟩ : Ty), ⟨false, 32⟩])

/-- what is needed of a type pair -/
structure PairFacts (it ot : Ty) : Prop where
  bi : 0 < it.bits
  bo : 0 < ot.bits
  pi : (promote it).signed = true ∧ ∀ v, it.fits v → (promote it).fits v
  ps : (promote (signedTy ot)).signed = true ∧ (∀ v, (signedTy ot).fits v → (promote (signedTy ot)).fits v) ∧
    (ot.bits < 32 → ∀ v w, (signedTy ot).fits v → (signedTy ot).fits w → (promote (signedTy ot)).fits (v - w))
  w : ∀ v w, (signedTy ot).fits v → (signedTy ot).fits w → (wideTy ot).fits (v - w)
  pp : (common it (wideTy ot)).signed = true ∧ 0 < (common it (wideTy ot)).bits
  pw : (∀ v, it.fits v → (common it (wideTy ot)).fits v) ∧ (∀ v, (wideTy ot).fits v → (common it (wideTy ot)).fits v)
  r : 0 < (common (common it (wideTy ot)) ot).bits ∧ (common (common it (wideTy ot)) ot).signed = true ∧
    (∀ v, (common it (wideTy ot)).fits v → (common (common it (wideTy ot)) ot).fits v) ∧
    ∀ v, ot.fits v → (common (common it (wideTy ot)) ot).fits v

theorem pair_facts (it ot : Ty) (h : Pair it ot) : PairFacts it ot := by
  obtain ⟨h1, h2⟩ := h
  simp only [List.mem_cons, List.not_mem_nil, or_false] at h1 h2
  rcases h1 with rfl | rfl | rfl | rfl | rfl <;> rcases h2 with rfl | rfl | rfl | rfl | rfl | rfl <;>
    constructor <;> simp [promote, signedTy, wideTy, common, Ty.fits, Ty.min, Ty.max] <;>
    (repeat' (first | intro _ | apply And.intro)) <;> omega

theorem op_signed (t : Ty) (hs : t.signed = true) (v : Int) (h : t.fits v) : op t v = some v := by
  simp [op, hs, h]

theorem segment_exact (it ot : Ty) (hp : Pair it ot) (p q : Int × Int) (hg : GoodSegment it ot p q) (v : Int)
    (h1 : p.1 < v) (h2 : v ≤ q.1) : segment it ot p.1 p.2 q.1 q.2 v = some (linear p q v) := by
  have F := pair_facts it ot hp
  have hmm := min_le_max it F.bi
  have ha : it.fits (v - p.1) := by
    have := hg.dist; have h0 := hg.x1; have h3 := hg.x2
    have hmin : it.min ≤ 0 := by unfold Ty.min; split <;> simp
    unfold Ty.fits at *; omega
  have hb : (promote (signedTy ot)).fits (q.2 - p.2) := by
    rcases hg.diff with h | h
    · exact F.ps.2.2 h _ _ hg.s2 hg.s1
    · exact F.ps.2.1 _ h
  have hbw := F.w _ _ hg.s2 hg.s1
  have hbs : 0 < (signedTy ot).bits := F.bo
  have hws : 0 < (wideTy ot).bits := by have := F.bo; simp [wideTy]; omega
  have habs := abs_le.1 (le_refl |q.2 - p.2|)
  have hca : (v - p.1) * |q.2 - p.2| ≤ (q.1 - p.1) * |q.2 - p.2| := mul_le_mul_of_nonneg_right (by omega) (abs_nonneg _)
  have hmul : |(v - p.1) * (q.2 - p.2)| ≤ (common it (wideTy ot)).max := by
    rw [abs_mul, abs_of_pos (show (0 : Int) < v - p.1 by omega)]; exact le_trans hca hg.prod
  have hsym : (common it (wideTy ot)).min ≤ -(common it (wideTy ot)).max := by
    simp only [Ty.min, Ty.max, F.pp.1, if_true]; omega
  have hab : (common it (wideTy ot)).fits ((v - p.1) * (q.2 - p.2)) := by
    have := abs_le.1 hmul; exact ⟨by omega, this.2⟩
  have hq := linear_between p q hg.lt v (by omega) h2
  unfold linear at hq
  have hqfit : (common it (wideTy ot)).fits (((v - p.1) * (q.2 - p.2)).tdiv (q.1 - p.1)) := by
    have hl : |((v - p.1) * (q.2 - p.2)).tdiv (q.1 - p.1)| ≤ |(v - p.1) * (q.2 - p.2)| := by
      rw [Int.abs_eq_natAbs, Int.abs_eq_natAbs, Int.natAbs_tdiv]
      exact_mod_cast Nat.div_le_self _ _
    have := abs_le.1 (le_trans hl hmul); exact ⟨by omega, this.2⟩
  have hres : ot.fits (p.2 + ((v - p.1) * (q.2 - p.2)).tdiv (q.1 - p.1)) := by
    have a1 := hg.y1; have a2 := hg.y2
    unfold Ty.fits at *
    omega
  unfold segment
  rw [op_signed _ F.pi.1 _ (F.pi.2 _ ha)]
  simp only [Option.bind_eq_bind, Option.bind_some]
  rw [wrap_fits it F.bi _ ha, wrap_fits _ hbs _ hg.s1, wrap_fits _ hbs _ hg.s2, op_signed _ F.ps.1 _ hb]
  simp only [Option.bind_some]
  rw [wrap_fits _ hws _ hbw, op_signed _ F.pi.1 _ (F.pi.2 _ hg.dist)]
  simp only [Option.bind_some]
  rw [wrap_fits it F.bi _ hg.dist, wrap_fits _ F.pp.2 _ (F.pw.1 _ ha), wrap_fits _ F.pp.2 _ (F.pw.2 _ hbw),
    op_signed _ F.pp.1 _ hab]
  simp only [Option.bind_some, quot]
  have hlt := hg.lt
  rw [wrap_fits _ F.pp.2 _ (F.pw.1 _ hg.dist), if_neg (by omega), op_signed _ F.pp.1 _ hqfit]
  simp only [Option.bind_some]
  rw [wrap_fits _ F.r.1 _ (F.r.2.2.1 _ hqfit), wrap_fits _ F.r.1 _ (F.r.2.2.2 _ hg.y1), Int.add_comm,
    op_signed _ F.r.2.1 _ (F.r.2.2.2 _ hres)]
  simp only [Option.bind_some]
  rw [wrap_fits ot F.bo _ hres]
  rfl

/-- consecutive points form good segments -/
def GoodTable (it ot : Ty) : List (Int × Int) → Prop
  | [] => True
  | [_] => True
  | p :: q :: l => GoodSegment it ot p q ∧ GoodTable it ot (q :: l)

/-- C35 (clamping), all integer types and tables: left of the first point the first output, right of all points the last
output. -/
theorem C35_clamp (it ot : Ty) (pts : List (Int × Int)) (p q : Int × Int) (v : Int) (hp : pts.head? = some p)
    (hq : pts.getLast? = some q) :
    (v ≤ p.1 → interpolate it ot pts v = some p.2) ∧
    ((∀ r ∈ pts, r.1 < v) → interpolate it ot pts v = some q.2) := by
  match pts, hp with
  | p :: rest, rfl =>
    constructor
    · intro h; simp [interpolate, h]
    · intro h
      have h0 := h p List.mem_cons_self
      simp only [interpolate]
      rw [if_neg (by omega)]
      clear h0
      induction rest generalizing p with
      | nil => simp at hq; subst hq; rfl
      | cons c rest ih =>
        have hc := h c (by simp)
        simp only [go]
        rw [if_neg (by omega)]
        exact ih c (by simpa [List.getLast?_cons_cons] using hq) (fun r hr => h r (List.mem_cons_of_mem _ hr))

theorem go_exact (it ot : Ty) (hp : Pair it ot) (v : Int) (post : List (Int × Int)) (p : Int × Int)
    (hg : GoodTable it ot (p :: post)) (h1 : p.1 < v) (q : Int × Int) (hq : (p :: post).getLast? = some q) (h2 : v ≤ q.1) :
    ∃ pre a b suf, p :: post = pre ++ a :: b :: suf ∧ a.1 < v ∧ v ≤ b.1 ∧ GoodSegment it ot a b ∧
      go it ot v p post = some (linear a b v) := by
  induction post generalizing p with
  | nil => simp at hq; subst hq; omega
  | cons c post ih =>
    simp only [go]
    by_cases hc : v ≤ c.1
    · rw [if_pos hc]
      exact ⟨[], p, c, post, rfl, h1, hc, hg.1, segment_exact it ot hp p c hg.1 v h1 hc⟩
    · rw [if_neg hc]
      obtain ⟨pre, a, b, suf, e, r⟩ := ih c hg.2 (by omega) (by simpa [List.getLast?_cons_cons] using hq)
      exact ⟨p :: pre, a, b, suf, by rw [e]; rfl, r⟩

/-- C35 (partial): for the supported type pairs and tables whose consecutive points satisfy `GoodSegment`, every input
between the first and last point is answered by linear interpolation between the two neighbouring points. Missing: tables
that are sorted but violate `GoodSegment` (see the counterexamples) and unsigned 32-bit inputs. -/
theorem C35_linear_partial (it ot : Ty) (hp : Pair it ot) (pts : List (Int × Int)) (hg : GoodTable it ot pts)
    (p q : Int × Int) (hh : pts.head? = some p) (hl : pts.getLast? = some q) (v : Int) (h1 : p.1 < v) (h2 : v ≤ q.1) :
    ∃ pre a b suf, pts = pre ++ a :: b :: suf ∧ a.1 < v ∧ v ≤ b.1 ∧
      interpolate it ot pts v = some (linear a b v) ∧
      min a.2 b.2 ≤ linear a b v ∧ linear a b v ≤ Max.max a.2 b.2 ∧ (v = b.1 → interpolate it ot pts v = some b.2) := by
  match pts, hh with
  | p :: rest, rfl =>
    obtain ⟨pre, a, b, suf, e, h3, h4, hs, h5⟩ := go_exact it ot hp v rest p hg h1 q hl h2
    have hi : interpolate it ot (p :: rest) v = some (linear a b v) := by
      simp only [interpolate]; rw [if_neg (by omega)]; exact h5
    refine ⟨pre, a, b, suf, e, h3, h4, hi, (linear_between a b hs.lt v (by omega) h4).1,
      (linear_between a b hs.lt v (by omega) h4).2, ?_⟩
    rintro rfl
    rw [hi, (linear_ends a b hs.lt).2]

/-- C35 (partial): exact at every supporting point. -/
theorem C35_exact_at_points_partial (it ot : Ty) (hp : Pair it ot) (pts : List (Int × Int)) (hg : GoodTable it ot pts)
    (r : Int × Int) (hr : r ∈ pts) : interpolate it ot pts r.1 = some r.2 := by
  have key : ∀ (post : List (Int × Int)) (p : Int × Int), GoodTable it ot (p :: post) →
      (∀ r ∈ post, p.1 < r.1) ∧ ∀ r ∈ post, go it ot r.1 p post = some r.2 := by
    intro post
    induction post with
    | nil => intro p _; simp
    | cons c post ih =>
      intro p hg
      obtain ⟨i1, i2⟩ := ih c hg.2
      have hpc := hg.1.lt
      constructor
      · intro r hr
        rcases List.mem_cons.1 hr with rfl | h
        · exact hpc
        · have := i1 r h; omega
      · intro r hr
        rcases List.mem_cons.1 hr with rfl | h
        · simp only [go, Int.le_refl, if_true]
          rw [segment_exact it ot hp p r hg.1 r.1 hpc (Int.le_refl _), (linear_ends p r hpc).2]
        · have := i1 r h
          simp only [go]
          rw [if_neg (by omega)]
          exact i2 r h
  match pts, hg with
  | p :: rest, hg =>
    obtain ⟨k1, k2⟩ := key rest p hg
    simp only [interpolate]
    rcases List.mem_cons.1 hr with rfl | h
    · simp
    · have := k1 r h
      rw [if_neg (by omega)]; exact k2 r h

-- the table of the unit test (uint8_t to int8_t-like values) is good
example : GoodTable ⟨false, 8⟩ ⟨true, 16⟩ [(30, 20), (50, -50), (80, 100), (100, 0)] := by
  refine ⟨?_, ?_, ?_, trivial⟩ <;> constructor <;> decide
example : interpolate ⟨false, 8⟩ ⟨true, 16⟩ [(30, 20), (50, -50), (80, 100), (100, 0)] 65 = some 25 := by decide

/-- C35 is false for unsigned outputs above half of the range: `Pair<uint8_t, uint8_t>` between 100 and 200 yields 22. -/
theorem C35_unsigned_output_counterexample :
    interpolate ⟨false, 8⟩ ⟨false, 8⟩ [(0, 100), (10, 200)] 5 = some 22 := by decide
/-- C35 is false for signed inputs further apart than half of the range: `Pair<int8_t, int8_t>` rising from 0 to 100
yields -67 in between. -/
theorem C35_signed_input_counterexample :
    interpolate ⟨true, 8⟩ ⟨true, 8⟩ [(-100, 0), (100, 100)] 50 = some (-67) := by decide
/-- C35 is false for unsigned 32-bit inputs and a falling curve: the product is computed in `uint32_t`. -/
theorem C35_unsigned_input_counterexample :
    interpolate ⟨false, 32⟩ ⟨true, 16⟩ [(0, 100), (10, 0)] 5 = some (-26165) := by decide
/-- C35: the product overflows for 16-bit inputs and outputs spread over the whole range. -/
theorem C35_product_overflow_counterexample :
    interpolate ⟨false, 16⟩ ⟨true, 16⟩ [(0, -32768), (65535, 32767)] 65535 = none := by decide
end Props
