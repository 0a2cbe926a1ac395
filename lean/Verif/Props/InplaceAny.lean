import Verif.Lemmas.InplaceAny
set_option autoImplicit false

/-!
# C183, C184: objects and values in `inplace_any`
-/

namespace Props.InplaceAny

open Modm.InplaceAny Spec.InplaceAny

private theorem view_some {w : World} {i : Nat} (h : view w i ≠ none) :
    full w (some i) = some ((view w).cap i, (view w).holding i) := by
  have e : full w (some i) = view w i := rfl
  rw [e]
  unfold State.cap State.holding
  cases hv : view w i with
  | none => exact absurd hv h
  | some x => rfl

private theorem view_none {w : World} {i : Nat} (h : view w i = none) : w.vars (some i) = none := by
  unfold view at h
  simpa using h

private theorem some_ne {i j : Nat} (h : i ≠ j) : (some i : Var) ≠ some j := by
  intro he; exact h (Option.some.inj he)

private theorem view_set {w w' : World} {i : Nat} {x : Option (Nat × Holding)}
    (f : full w' = setAt (full w) (some i) x) : view w' = (view w).set i x := by
  funext k
  have e : view w' k = full w' (some k) := rfl
  rw [e, f]
  unfold setAt State.set
  by_cases hk : k = i
  · simp [hk]
  · rw [if_neg (some_ne hk), if_neg hk]; rfl

private theorem view_set2 {w w' : World} {i j : Nat} {x y : Option (Nat × Holding)}
    (f : full w' = setAt (setAt (full w) (some j) y) (some i) x) : view w' = ((view w).set j y).set i x := by
  funext k
  have e : view w' k = full w' (some k) := rfl
  rw [e, f]
  unfold setAt State.set
  by_cases hk : k = i
  · simp [hk]
  · rw [if_neg (some_ne hk), if_neg hk]
    by_cases hj : k = j
    · simp [hj]
    · rw [if_neg (some_ne hj), if_neg hj]; rfl

private theorem local_none {w w' : World} {i : Nat} {x : Option (Nat × Holding)} (h : w.vars none = none)
    (f : full w' = setAt (full w) (some i) x) : w'.vars none = none := by
  have : full w' none = none := by
    rw [f]; unfold setAt full; simp [h]
  unfold full at this
  simpa using this

private theorem local_none2 {w w' : World} {i j : Nat} {x y : Option (Nat × Holding)} (h : w.vars none = none)
    (f : full w' = setAt (setAt (full w) (some j) y) (some i) x) : w'.vars none = none := by
  have : full w' none = none := by
    rw [f]; unfold setAt full; simp [h]
  unfold full at this
  simpa using this

private theorem set_set (s : State) (i : Nat) (x y : Option (Nat × Holding)) : (s.set i x).set i y = s.set i y := by
  funext k; unfold State.set; by_cases hk : k = i <;> simp [hk]

private theorem set_self (s : State) (i : Nat) (h : s i ≠ none) : s.set i (some (s.cap i, s.holding i)) = s := by
  funext k
  unfold State.set
  by_cases hk : k = i
  · rw [if_pos hk, hk]
    unfold State.cap State.holding
    cases hs : s i with
    | none => exact absurd hs h
    | some x => rfl
  · rw [if_neg hk]

private theorem set_none_self (s : State) (i : Nat) (h : s i = none) : s.set i none = s := by
  funext k; unfold State.set; by_cases hk : k = i <;> simp [hk, h]

private theorem cap_set_ne (s : State) {i j : Nat} (x : Option (Nat × Holding)) (h : i ≠ j) :
    (s.set j x).cap i = s.cap i := by
  unfold State.cap State.set; rw [if_neg h]

private theorem holding_set_ne (s : State) {i j : Nat} (x : Option (Nat × Holding)) (h : i ≠ j) :
    (s.set j x).holding i = s.holding i := by
  unfold State.holding State.set; rw [if_neg h]

/-- One use: it is defined, keeps the account, and has its meaning unless it is half a swap. -/
private theorem step_ok {t : Target} {w : World} (op : Op) (inv : Inv t w) (hl : w.vars none = none)
    (legal : Legal t (view w) op) :
    ∃ w', step t w op = some w' ∧ Inv t w' ∧ w'.vars none = none ∧
      (NotHalf (view w) op → view w' = mean (view w) op) := by
  cases op with
  | defaultCtor i cap =>
    obtain ⟨inv1, f1⟩ := declare_ok cap inv (view_none legal)
    exact ⟨_, rfl, inv1, local_none hl f1, fun _ => view_set f1⟩
  | copyCtor i cap j ok =>
    obtain ⟨li, lj, lc⟩ := legal
    have hij : i ≠ j := by intro h; rw [h] at li; exact lj li
    have ej := view_some lj
    obtain ⟨inv1, f1⟩ := declare_ok cap inv (view_none li)
    obtain ⟨b, hb, hhb, -⟩ := handler_ok inv ej
    have e1i : full (declare w (some i) cap) (some i) = some (cap, none) := by
      rw [f1]; unfold setAt; rw [if_pos rfl]
    have e1j : full (declare w (some i) cap) (some j) = some ((view w).cap j, (view w).holding j) := by
      rw [f1]; unfold setAt; rw [if_neg (some_ne (Ne.symm hij))]; exact ej
    cases hh : (view w).holding j with
    | none =>
      rw [hh] at e1j hhb
      refine ⟨_, ?_, inv1, local_none hl f1, fun _ => ?_⟩
      · unfold step
        simp only [bind, Option.bind, hb, copyFrom_empty ok inv1 e1j]
        rw [if_neg (by rw [hhb]; simp)]
      · rw [view_set f1]
        simp only [mean, hh, Option.isNone_none, Bool.or_true, if_true]
    | some p =>
      rw [hh] at e1j hhb
      obtain ⟨w2, h2, inv2, f2⟩ := copyFrom_ok (ty := p.1) (v := p.2) ok inv1 (some_ne hij) e1i e1j lc
      cases ok with
      | true =>
        refine ⟨w2, ?_, inv2, local_none (local_none hl f1) f2, fun _ => ?_⟩
        · unfold step
          simp only [bind, Option.bind, hb, h2]
          rw [if_neg (by simp)]
        · rw [view_set f2, view_set f1, set_set]
          simp only [mean, hh, Bool.true_or, if_true]
      | false =>
        have e2 : full w2 (some i) = some (cap, none) := by
          rw [f2]; unfold setAt; rw [if_pos rfl]; rfl
        obtain ⟨inv3, f3⟩ := undeclare_ok inv2 e2
        refine ⟨_, ?_, inv3, local_none (local_none (local_none hl f1) f2) f3, fun _ => ?_⟩
        · unfold step
          simp only [bind, Option.bind, hb, h2]
          rw [if_pos ⟨by rw [hhb]; rfl, trivial⟩]
        · rw [view_set f3, view_set f2, view_set f1, set_set, set_set, set_none_self _ _ li]
          simp [mean, hh]
  | moveCtor i cap j =>
    obtain ⟨li, lj, lc⟩ := legal
    have hij : i ≠ j := by intro h; rw [h] at li; exact lj li
    have ej := view_some lj
    obtain ⟨inv1, f1⟩ := declare_ok cap inv (view_none li)
    have e1i : full (declare w (some i) cap) (some i) = some (cap, none) := by
      rw [f1]; unfold setAt; rw [if_pos rfl]
    have e1j : full (declare w (some i) cap) (some j) = some ((view w).cap j, (view w).holding j) := by
      rw [f1]; unfold setAt; rw [if_neg (some_ne (Ne.symm hij))]; exact ej
    cases hh : (view w).holding j with
    | none =>
      rw [hh] at e1j
      refine ⟨_, moveFrom_empty inv1 e1j, inv1, local_none hl f1, fun _ => ?_⟩
      rw [view_set f1]
      have hm : moved (none : Holding) = (view w).holding j := by rw [hh]; rfl
      simp only [mean, hh, State.hold]
      rw [hm, set_self _ _ lj]
    | some p =>
      rw [hh] at e1j
      obtain ⟨w2, h2, inv2, f2⟩ := moveFrom_ok (ty := p.1) (v := p.2) inv1 (some_ne hij) e1i e1j lc
      refine ⟨w2, h2, inv2, local_none2 (local_none hl f1) f2, fun _ => ?_⟩
      rw [view_set2 f2, view_set f1]
      simp only [mean, hh, State.hold]
      funext k
      unfold State.set
      by_cases hk : k = i <;> simp [hk, moved]
  | valueCtor i cap ty v ok =>
    obtain ⟨li, lf⟩ := legal
    obtain ⟨inv1, f1⟩ := declare_ok cap inv (view_none li)
    have e1i : full (declare w (some i) cap) (some i) = some (cap, none) := by
      rw [f1]; unfold setAt; rw [if_pos rfl]
    cases ok with
    | true =>
      obtain ⟨w2, h2, inv2, f2⟩ := construct_ok (some v) inv1 e1i lf
      refine ⟨w2, h2, inv2, local_none (local_none hl f1) f2, fun _ => ?_⟩
      rw [view_set f2, view_set f1, set_set]
      rfl
    | false =>
      obtain ⟨inv2, f2⟩ := undeclare_ok inv1 e1i
      refine ⟨_, rfl, inv2, local_none (local_none hl f1) f2, fun _ => ?_⟩
      rw [view_set f2, view_set f1, set_set, set_none_self _ _ li]
      rfl
  | copyAssign i j ok =>
    obtain ⟨li, lj, lc⟩ := legal
    by_cases hij : i = j
    · exact ⟨w, by simp [step, hij], inv, hl, fun _ => by simp [mean, hij]⟩
    obtain ⟨w1, h1, inv1, f1⟩ := destruct_ok inv (view_some li)
    have e1i : full w1 (some i) = some ((view w).cap i, none) := by rw [f1]; unfold setAt; rw [if_pos rfl]
    have e1j : full w1 (some j) = some ((view w).cap j, (view w).holding j) := by
      rw [f1]; unfold setAt; rw [if_neg (some_ne (Ne.symm hij))]; exact view_some lj
    cases hh : (view w).holding j with
    | none =>
      rw [hh] at e1j
      refine ⟨w1, ?_, inv1, local_none hl f1, fun _ => ?_⟩
      · simp only [step]
        rw [if_neg hij]
        simp only [bind, Option.bind, h1]
        exact copyFrom_empty ok inv1 e1j
      · rw [view_set f1]
        simp [mean, hij, hh, State.hold]
    | some p =>
      rw [hh] at e1j
      obtain ⟨w2, h2, inv2, f2⟩ := copyFrom_ok (ty := p.1) (v := p.2) ok inv1 (some_ne hij) e1i e1j lc
      refine ⟨w2, ?_, inv2, local_none (local_none hl f1) f2, fun _ => ?_⟩
      · simp only [step]
        rw [if_neg hij]
        simp only [bind, Option.bind, h1]
        exact h2
      · rw [view_set f2, view_set f1, set_set]
        simp [mean, hij, hh, State.hold]
  | moveAssign i j =>
    obtain ⟨li, lj, lc⟩ := legal
    by_cases hij : i = j
    · exact ⟨w, by simp [step, hij], inv, hl, fun _ => by simp [mean, hij]⟩
    obtain ⟨w1, h1, inv1, f1⟩ := destruct_ok inv (view_some li)
    have e1i : full w1 (some i) = some ((view w).cap i, none) := by rw [f1]; unfold setAt; rw [if_pos rfl]
    have e1j : full w1 (some j) = some ((view w).cap j, (view w).holding j) := by
      rw [f1]; unfold setAt; rw [if_neg (some_ne (Ne.symm hij))]; exact view_some lj
    cases hh : (view w).holding j with
    | none =>
      rw [hh] at e1j
      refine ⟨w1, ?_, inv1, local_none hl f1, fun _ => ?_⟩
      · simp only [step]
        rw [if_neg hij]
        simp only [bind, Option.bind, h1]
        exact moveFrom_empty inv1 e1j
      · rw [view_set f1]
        have hm : moved (none : Holding) = (view w).holding j := by rw [hh]; rfl
        simp only [mean, hij, if_false, hh, State.hold]
        rw [hm, set_self _ _ lj]
    | some p =>
      rw [hh] at e1j
      obtain ⟨w2, h2, inv2, f2⟩ := moveFrom_ok (ty := p.1) (v := p.2) inv1 (some_ne hij) e1i e1j lc
      refine ⟨w2, ?_, inv2, local_none2 (local_none hl f1) f2, fun _ => ?_⟩
      · simp only [step]
        rw [if_neg hij]
        simp only [bind, Option.bind, h1]
        exact h2
      · rw [view_set2 f2, view_set f1]
        simp only [mean, hij, if_false, hh, State.hold]
        rw [cap_set_ne _ _ hij]
        funext k
        unfold State.set
        by_cases hk : k = i <;> simp [hk, moved]
  | valueAssign i ty v ok =>
    obtain ⟨li, lf⟩ := legal
    obtain ⟨w1, h1, inv1, f1⟩ := destruct_ok inv (view_some li)
    have e1i : full w1 (some i) = some ((view w).cap i, none) := by rw [f1]; unfold setAt; rw [if_pos rfl]
    cases ok with
    | true =>
      obtain ⟨w2, h2, inv2, f2⟩ := construct_ok (some v) inv1 e1i lf
      refine ⟨w2, ?_, inv2, local_none (local_none hl f1) f2, fun _ => ?_⟩
      · unfold step
        simp only [bind, Option.bind, h1]
        exact h2
      · rw [view_set f2, view_set f1, set_set]; rfl
    | false =>
      refine ⟨w1, ?_, inv1, local_none hl f1, fun _ => ?_⟩
      · unfold step
        simp only [bind, Option.bind, h1]
        rfl
      · rw [view_set f1]; rfl
  | emplace i ty v ok =>
    obtain ⟨li, lf⟩ := legal
    obtain ⟨w1, h1, inv1, f1⟩ := destruct_ok inv (view_some li)
    have e1i : full w1 (some i) = some ((view w).cap i, none) := by rw [f1]; unfold setAt; rw [if_pos rfl]
    cases ok with
    | true =>
      obtain ⟨w2, h2, inv2, f2⟩ := construct_ok (some v) inv1 e1i lf
      refine ⟨w2, ?_, inv2, local_none (local_none hl f1) f2, fun _ => ?_⟩
      · unfold step
        simp only [bind, Option.bind, h1]
        exact h2
      · rw [view_set f2, view_set f1, set_set]; rfl
    | false =>
      refine ⟨w1, ?_, inv1, local_none hl f1, fun _ => ?_⟩
      · unfold step
        simp only [bind, Option.bind, h1]
        rfl
      · rw [view_set f1]; rfl
  | reset i =>
    obtain ⟨w1, h1, inv1, f1⟩ := destruct_ok inv (view_some legal)
    exact ⟨w1, h1, inv1, local_none hl f1, fun _ => view_set f1⟩
  | swap i j =>
    obtain ⟨li, lj, lc⟩ := legal
    have ei := view_some li
    have ej := view_some lj
    rw [lc] at ei
    by_cases hij : i = j
    · subst hij
      refine ⟨w, by simp [step, Modm.InplaceAny.swap], inv, hl, fun _ => ?_⟩
      simp only [mean, State.hold]
      rw [set_self _ _ li, set_self _ _ li]
    cases hhi : (view w).holding i with
    | none =>
      cases hhj : (view w).holding j with
      | none =>
        rw [hhi] at ei; rw [hhj] at ej
        refine ⟨w, swap_none inv ei ej, inv, hl, fun _ => ?_⟩
        simp only [mean, State.hold]
        rw [cap_set_ne _ _ hij, hhi, ← hhj, set_self _ _ lj, hhj, ← hhi, set_self _ _ li]
      | some q =>
        rw [hhi] at ei; rw [hhj] at ej
        obtain ⟨w2, h2, inv2, f2⟩ := swap_right inv (some_ne hij) ei ej
        refine ⟨w2, h2, inv2, local_none2 hl f2, fun hn => ?_⟩
        simp [NotHalf, hhi, hhj] at hn
    | some p =>
      cases hhj : (view w).holding j with
      | none =>
        rw [hhi] at ei; rw [hhj] at ej
        obtain ⟨w2, h2, inv2, f2⟩ := swap_left inv (some_ne hij) ei ej
        refine ⟨w2, h2, inv2, local_none2 hl f2, fun hn => ?_⟩
        simp [NotHalf, hhi, hhj] at hn
      | some q =>
        rw [hhi] at ei; rw [hhj] at ej
        obtain ⟨w2, h2, inv2, f2⟩ := swap_both inv hl (by simp) (by simp) (some_ne hij) ei ej
        refine ⟨w2, h2, inv2, local_none2 hl f2, fun _ => ?_⟩
        rw [view_set2 f2]
        simp only [mean, State.hold, hhi, hhj]
        rw [cap_set_ne _ _ hij, lc]
  | destroy i =>
    obtain ⟨w1, h1, inv1, f1⟩ := dtor_ok inv (view_some legal)
    exact ⟨w1, h1, inv1, local_none hl f1, fun _ => view_set f1⟩

private theorem inv_start (t : Target) : Inv t start := by
  constructor <;> simp [start]

private theorem run_ok {t : Target} (ops : List Op) : ∀ {w : World}, Inv t w → w.vars none = none →
    LegalFrom t w ops → ∃ w', run t w ops = some w' ∧ Inv t w' ∧ w'.vars none = none := by
  induction ops with
  | nil => intro w inv hl _; exact ⟨w, rfl, inv, hl⟩
  | cons op ops ih =>
    intro w inv hl h
    obtain ⟨w1, h1, inv1, hl1, -⟩ := step_ok op inv hl h.1
    have h' := h.2
    rw [h1] at h'
    obtain ⟨w2, h2, inv2, hl2⟩ := ih inv1 hl1 h'
    exact ⟨w2, by simp [run, h1, h2], inv2, hl2⟩

private theorem accounted {t : Target} {w : World} (inv : Inv t w) (hl : w.vars none = none) : Accounted w := by
  refine ⟨inv.nodup, inv.bound, ?_⟩
  intro x hx hnx
  obtain ⟨k, a, o, ha, ho, hid⟩ := inv.owned x hx hnx
  cases k with
  | none => rw [hl] at ha; simp at ha
  | some i =>
    refine ⟨i, ⟨a, o, ha, ho, hid⟩, ?_⟩
    rintro j ⟨b, p, hb, hp, hidp⟩
    exact Option.some.inj (inv.uniq (some j) (some i) b a p o hb ha hp ho (by rw [hidp, hid]))

/-- C183 (partial: of types whose alignment the storage has, and values from outside the container): whatever the
program does with its containers, nothing is undefined - no object is used, destroyed or overwritten unless it
lives there and is of that type -, each object which was constructed is destroyed at most once, and one which was
not is in exactly one container which lives; so when all containers are gone, each object has been destroyed
exactly once. -/
theorem C183_lifetimes_partial (t : Target) (ops : List Op) (h : LegalFrom t start ops) :
    ∃ w, run t start ops = some w ∧ Accounted w ∧ ((∀ i, view w i = none) → Balanced w) := by
  obtain ⟨w, hr, inv, hl⟩ := run_ok ops (inv_start t) rfl h
  refine ⟨w, hr, accounted inv hl, fun hv => ⟨inv.nodup, fun x => ⟨inv.bound x, fun hx => ?_⟩⟩⟩
  by_contra hnx
  obtain ⟨k, a, o, ha, ho, hid⟩ := inv.owned x hx hnx
  cases k with
  | none => rw [hl] at ha; simp at ha
  | some i => rw [view_none (hv i)] at ha; simp at ha

/-- `int` and a structure of 12 bytes. -/
private def tInt : Ty := ⟨1, 4, 4⟩
private def tRec : Ty := ⟨2, 12, 4⟩

private def prog : List Op :=
  [.valueCtor 0 16 tInt 7 true, .defaultCtor 1 16, .valueCtor 2 16 tRec 9 true, .swap 0 2, .swap 1 0,
   .copyAssign 2 1 true, .moveCtor 3 24 2, .copyCtor 4 16 1 false, .emplace 0 tInt 3 false, .destroy 0, .destroy 1,
   .destroy 2, .destroy 3]

/-- A program with a half swap, a copy and a constructor which throw, and containers of different capacities: eight
constructions, eight destructions. -/
example : LegalFrom arm start prog ∧ ((run arm start prog).map (fun w => (w.next, w.dead))) =
    some (8, [7, 6, 5, 4, 3, 2, 0, 1]) := by decide +kernel

/-- C184 (partial: without swaps of a container which holds a value and one which does not): the containers hold
after any program what containers of any value are to hold; a container has a value exactly when it holds one; and
a cast gives the value for the type it holds and the null pointer for all others. -/
theorem C184_values_partial (t : Target) (ops : List Op) (h : LegalRun t (fun _ => none) ops) :
    ∃ w, run t start ops = some w ∧ view w = meanAll (fun _ => none) ops ∧
      ∀ i c x, meanAll (fun _ => none) ops i = some (c, x) →
        hasValue w i = some x.isSome ∧
        ∀ ty, anyCast w i ty = some (match x with
          | some (ty', v) => if ty = ty' then some v else none
          | none => none) := by
  have key : ∀ (ops : List Op) (w : World), Inv t w → w.vars none = none → LegalRun t (view w) ops →
      ∃ w', run t w ops = some w' ∧ Inv t w' ∧ view w' = meanAll (view w) ops := by
    intro ops
    induction ops with
    | nil => intro w inv _ _; exact ⟨w, rfl, inv, rfl⟩
    | cons op ops ih =>
      intro w inv hl hr
      obtain ⟨l1, l2, l3⟩ := hr
      obtain ⟨w1, h1, inv1, hl1, hv⟩ := step_ok op inv hl l1
      rw [← hv l2] at l3
      obtain ⟨w2, h2, inv2, hv2⟩ := ih w1 inv1 hl1 l3
      refine ⟨w2, by simp [run, h1, h2], inv2, ?_⟩
      rw [hv2, hv l2]; rfl
  obtain ⟨w, hr, inv, hv⟩ := key ops start (inv_start t) rfl h
  refine ⟨w, hr, hv, ?_⟩
  intro i c x hx
  have hv' : view w = meanAll (fun _ => none) ops := hv
  rw [← hv'] at hx
  have hf : full w (some i) = some (c, x) := hx
  obtain ⟨b, hb, hh, -⟩ := handler_ok inv hf
  constructor
  · unfold hasValue
    rw [hb]
    simp [hh]
  · intro ty
    unfold anyCast
    simp only [bind, Option.bind, hb, hh]
    cases x with
    | none => simp
    | some p =>
      obtain ⟨ty', v⟩ := p
      by_cases ht : ty = ty'
      · subst ht
        obtain ⟨b1, o1, -, -, -, hval, -, hobj⟩ := objAt_ok hf
        simp [hobj, hval]
      · have : ty' ≠ ty := Ne.symm ht
        simp [ht, this]

/-- Copies, moves and a swap between containers of 16 and 24 bytes. -/
private def prog2 : List Op :=
  [.valueCtor 0 16 tInt 7 true, .valueCtor 1 16 tRec 9 true, .swap 0 1, .defaultCtor 2 24, .copyAssign 2 0 true,
   .moveAssign 0 1, .valueAssign 1 tInt 3 true]

example : LegalRun arm (fun _ => none) prog2 ∧
    (meanAll (fun _ => none) prog2) 0 = some (16, some (tInt, some 7)) ∧
    (meanAll (fun _ => none) prog2) 1 = some (16, some (tInt, some 3)) ∧
    (meanAll (fun _ => none) prog2) 2 = some (24, some (tRec, some 9)) := by decide +kernel

/-- C184 does not hold in general: after `swap` with an empty container the other one is not empty: it holds an
object which was moved from. -/
theorem C184_swap_counterexample :
    ∃ ops, LegalFrom arm start ops ∧
      ((run arm start ops).map (fun w => (hasValue w 0, hasValue w 1, anyCast w 0 tInt, anyCast w 1 tInt))) =
        some (some true, some true, some (some none), some (some (some 7))) ∧
      meanAll (fun _ => none) ops 0 = some (16, none) :=
  ⟨[.valueCtor 0 16 tInt 7 true, .defaultCtor 1 16, .swap 0 1], by decide +kernel, rfl, rfl⟩

/-- C183 does not hold in general: assigning to a container the value it holds reads the object after its destructor
ran. -/
theorem C183_own_counterexample :
    ∃ w, step arm start (.valueCtor 0 16 tInt 7 true) = some w ∧ anyCast w 0 tInt = some (some (some 7)) ∧
      assignOwn arm w 0 tInt = none :=
  ⟨_, rfl, by decide +kernel, by decide +kernel⟩

private theorem foldr_dvd (l : List (Nat × Nat)) (p : Nat × Nat) (h : p ∈ l) :
    p.2 ∣ l.foldr (fun p a => Nat.lcm p.2 a) 1 := by
  induction l with
  | nil => simp at h
  | cons q l ih =>
    rcases List.mem_cons.mp h with rfl | h
    · exact Nat.dvd_lcm_left _ _
    · exact Nat.dvd_trans (ih h) (Nat.dvd_lcm_right _ _)

/-- The alignment C183 asks for: all types made of scalars are aligned in every container they are small enough
for. -/
theorem C183_aligned_partial (t : Target) (s a : Nat) (h : Natural t s a) :
    ∀ tag cap, s ≤ cap → Fits t ⟨tag, s, a⟩ cap := by
  induction h with
  | scalar s a hm =>
    intro tag cap hc
    refine ⟨hc, Nat.dvd_trans (foldr_dvd _ (s, a) ?_) (Nat.dvd_lcm_left _ _)⟩
    exact List.mem_filter.mpr ⟨hm, by simpa using hc⟩
  | small s a hd =>
    intro tag cap hc
    exact ⟨hc, Nat.dvd_trans hd (Nat.dvd_lcm_right _ _)⟩
  | both s a s₁ a₁ s₂ a₂ _ _ h1 h2 he ih1 ih2 =>
    intro tag cap hc
    refine ⟨hc, ?_⟩
    simp only [he]
    exact Nat.lcm_dvd (ih1 tag cap (le_trans h1 hc)).2 (ih2 tag cap (le_trans h2 hc)).2

/-- A structure of a `double` and an `int16_t` on ARM: 16 bytes, aligned to 8. -/
example : Natural arm 16 8 :=
  .both 16 8 8 8 2 2 (.scalar 8 8 (by decide)) (.small 2 2 (by decide)) (by decide) (by decide) (by decide)

/-- Types which ask for more are accepted all the same (only their size is asserted): one of 16 bytes aligned to 16
is put at an address which need not be. -/
theorem C183_aligned_counterexample :
    (⟨3, 16, 16⟩ : Ty).size ≤ 16 ∧ anyAlign arm 16 = 8 ∧
      step arm start (.valueCtor 0 16 ⟨3, 16, 16⟩ 1 true) = none := by
  refine ⟨by decide, by decide, ?_⟩
  unfold step
  simp only [if_true]
  unfold construct
  simp only [declare, World.put, if_true]
  rw [if_neg (by decide)]

end Props.InplaceAny
