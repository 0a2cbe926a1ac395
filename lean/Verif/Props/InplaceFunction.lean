import Verif.Lemmas.InplaceFunction
set_option autoImplicit false

/-!
# C185: function objects in `inplace_function`
-/

namespace Props.InplaceFunction

open Modm.InplaceFunction Spec.InplaceFunction Function

/-- Between two uses. -/
private structure Inv (w : World) : Prop where
  ledger : Ledger w
  agree : Agree w.fns (cv w)
  param : w.fns .param = none
  tmp : w.fns .tmp = none

private theorem outSelf {w : World} (l : Ledger w) : Out w w.fns (cv w) w.out := ⟨l, rfl, rfl, rfl⟩

private theorem legal_some {w : World} {i : Nat} (h : (view w).fns i ≠ none) :
    ∃ tab, w.fns (.user i) = some ((view w).dim i, tab) := by
  unfold State.dim
  cases hv : w.fns (.user i) with
  | none => simp [view, hv] at h
  | some p => exact ⟨p.2, by simp [view, hv]⟩

private theorem legal_none {w : World} {i : Nat} (h : (view w).fns i = none) : w.fns (.user i) = none := by
  simpa [view] using h

private theorem holding_eq {w : World} (inv : Inv w) (i : Nat) : (view w).holding i = cv w (.user i) := by
  unfold State.holding
  cases hv : w.fns (.user i) with
  | none => rw [inv.agree.none hv]; simp [view, hv]
  | some p => simp [view, hv, cv]

private theorem user_ne {i j : Nat} (h : i ≠ j) : Var.user i ≠ Var.user j := by
  intro he; exact h (Var.user.inj he)

/-- What the program sees of tables and storages. -/
private def seen (F : Var → Option (Dim × Option Ty)) (C : Var → Holding) (r : List (Option Nat)) : State :=
  ⟨fun i => (F (.user i)).map (fun p => (p.1, C (.user i))), r⟩

private theorem view_out {w : World} {F : Var → Option (Dim × Option Ty)} {C : Var → Holding} {r : List (Option Nat)}
    (h : Out w F C r) : view w = seen F C r := by
  obtain ⟨_, rfl, rfl, rfl⟩ := h
  rfl

private theorem seen_put (F : Var → Option (Dim × Option Ty)) (C : Var → Holding) (r : List (Option Nat)) (i : Nat)
    (d : Dim) (tab : Option Ty) (x : Holding) :
    seen (update F (.user i) (some (d, tab))) (update C (.user i) x) r = (seen F C r).set i (some (d, x)) := by
  unfold seen State.set
  congr 1
  funext k
  by_cases hk : k = i
  · subst hk; simp
  · rw [update_of_ne (user_ne hk), update_of_ne (user_ne hk), update_of_ne hk]

private theorem seen_drop (F : Var → Option (Dim × Option Ty)) (C : Var → Holding) (r : List (Option Nat)) (i : Nat)
    (x : Holding) :
    seen (update F (.user i) none) (update C (.user i) x) r = (seen F C r).set i none := by
  unfold seen State.set
  congr 1
  funext k
  by_cases hk : k = i
  · subst hk; simp
  · rw [update_of_ne (user_ne hk), update_of_ne (user_ne hk), update_of_ne hk]

private theorem seen_other (F : Var → Option (Dim × Option Ty)) (C : Var → Holding) (r : List (Option Nat)) (v : Var)
    (x : Option (Dim × Option Ty)) (y : Holding) (hv : ∀ i, v ≠ .user i) :
    seen (update F v x) (update C v y) r = seen F C r := by
  unfold seen
  congr 1
  funext k
  rw [update_of_ne (Ne.symm (hv k)), update_of_ne (Ne.symm (hv k))]

private theorem inv_of {w : World} {F : Var → Option (Dim × Option Ty)} {C : Var → Holding} {r : List (Option Nat)}
    (h : Out w F C r) (ag : Agree F C) (hp : F .param = none) (ht : F .tmp = none) : Inv w := by
  obtain ⟨l, rfl, rfl, rfl⟩ := h
  exact ⟨l, ag, hp, ht⟩

private theorem hold_self (s : State) (i : Nat) (h : s.fns i ≠ none) : s.hold i (s.holding i) = s := by
  unfold State.hold State.set State.dim State.holding
  have : update s.fns i (some ((Option.map Prod.fst (s.fns i)).getD (0, 0), (s.fns i).bind Prod.snd)) = s.fns := by
    funext k
    by_cases hk : k = i
    · subst hk
      rw [update_self]
      cases hs : s.fns k with
      | none => exact absurd hs h
      | some x => rfl
    · rw [update_of_ne hk]
  rw [this]

private theorem dim_set_ne (s : State) {i j : Nat} (x : Option (Dim × Holding)) (h : i ≠ j) :
    (s.set j x).dim i = s.dim i := by
  unfold State.dim State.set
  simp only [update_of_ne h]

private theorem dim_set_self (s : State) (i : Nat) (d : Dim) (x : Holding) : (s.set i (some (d, x))).dim i = d := by
  unfold State.dim State.set
  simp

private theorem set_comm (s : State) {i j : Nat} (x y : Option (Dim × Holding)) (h : i ≠ j) :
    (s.set i x).set j y = (s.set j y).set i x := by
  unfold State.set
  simp only
  rw [update_comm (Ne.symm h)]

private theorem set_set (s : State) (i : Nat) (x y : Option (Dim × Holding)) : (s.set i x).set i y = s.set i y := by
  unfold State.set; simp

private theorem fits_of_holds {p : Ty × Nat} {d e : Dim} (f : Fits p.1 e) (h : Holds d e) : Fits p.1 d :=
  ⟨Nat.le_trans f.1 h.1, Nat.dvd_trans f.2 h.2⟩

private theorem param_ne (i : Nat) : Var.param ≠ .user i := by simp
private theorem tmp_ne (i : Nat) : Var.tmp ≠ .user i := by simp

private theorem step_ok (f : Calls) {w : World} (op : Op) (inv : Inv w) (legal : Legal (view w) op) :
    ∃ w', step f w op = some w' ∧ Inv w' ∧ view w' = mean f (view w) op := by
  have o0 := outSelf inv.ledger
  have hv0 : view w = seen w.fns (cv w) w.out := rfl
  cases op with
  | defaultCtor i d =>
    have hf := legal_none legal
    have o1 := declare_ok (.user i) d none o0
    have hc : cv w = update (cv w) (.user i) none := by
      rw [← inv.agree.none hf]; exact (update_eq_self _ _).symm
    refine ⟨_, rfl, inv_of o1 ?_ ?_ ?_, ?_⟩
    · rw [hc]; exact inv.agree.put (.user i) d none (by simp)
    · rw [update_of_ne (by simp)]; exact inv.param
    · rw [update_of_ne (by simp)]; exact inv.tmp
    · rw [hc] at o1
      rw [view_out o1, seen_put]; rfl
  | closureCtor i d ty v ok =>
    obtain ⟨l1, l2⟩ := legal
    have hf := legal_none l1
    cases ok with
    | true =>
      obtain ⟨w1, h1, o1⟩ := closureCtor_ok v o0 inv.agree hf l2
      refine ⟨w1, h1, inv_of o1 ?_ ?_ ?_, ?_⟩
      · exact inv.agree.put (.user i) d (some (ty, v)) (by rintro p hp; obtain rfl := Option.some.inj hp; exact l2)
      · rw [update_of_ne (by simp)]; exact inv.param
      · rw [update_of_ne (by simp)]; exact inv.tmp
      · rw [view_out o1, seen_put]; rfl
    | false =>
      obtain ⟨w1, h1, o1⟩ := closureCtor_throws (ty := ty) (d := d) v o0 hf
      exact ⟨w1, h1, inv_of o1 inv.agree inv.param inv.tmp, by rw [view_out o1]; rfl⟩
  | copyCtor i d j ok =>
    obtain ⟨l1, l2, l3⟩ := legal
    have hij : i ≠ j := by intro h; rw [h] at l1; exact l2 l1
    have hf := legal_none l1
    obtain ⟨tab, hj⟩ := legal_some l2
    obtain ⟨w1, h1, o1⟩ := copyCtor_ok ok o0 inv.agree hf hj l3
    by_cases hb : (ok || (cv w (.user j)).isNone) = true
    · rw [if_pos hb, if_pos hb] at o1
      refine ⟨w1, h1, inv_of o1 ?_ ?_ ?_, ?_⟩
      · exact inv.agree.put (.user i) d _ (fun p hp => fits_of_holds ((inv.agree.of hj).2 p hp) l3)
      · rw [update_of_ne (by simp)]; exact inv.param
      · rw [update_of_ne (by simp)]; exact inv.tmp
      · rw [view_out o1, seen_put]
        simp only [mean, holding_eq inv]
        rw [if_pos hb]; rfl
    · rw [if_neg hb, if_neg hb] at o1
      refine ⟨w1, h1, inv_of o1 inv.agree inv.param inv.tmp, ?_⟩
      rw [view_out o1]
      simp only [mean, holding_eq inv]
      rw [if_neg hb]; rfl
  | moveCtor i d j =>
    obtain ⟨l1, l2, l3⟩ := legal
    have hij : i ≠ j := by intro h; rw [h] at l1; exact l2 l1
    have hf := legal_none l1
    obtain ⟨tab, hj⟩ := legal_some l2
    obtain ⟨w1, h1, o1⟩ := moveCtor_ok o0 inv.agree (user_ne hij) hf hj l3
    refine ⟨w1, h1, inv_of o1 ?_ ?_ ?_, ?_⟩
    · exact (inv.agree.put (.user i) d _ (fun p hp => fits_of_holds ((inv.agree.of hj).2 p hp) l3)).put
        (.user j) _ none (by simp)
    · rw [update_of_ne (by simp), update_of_ne (by simp)]; exact inv.param
    · rw [update_of_ne (by simp), update_of_ne (by simp)]; exact inv.tmp
    · rw [view_out o1, seen_put, seen_put]
      simp only [mean, holding_eq inv, State.hold]
      rw [set_comm _ _ _ hij]; rfl
  | assignNull i =>
    obtain ⟨tab, hi⟩ := legal_some legal
    obtain ⟨w1, h1, o1⟩ := assignNull_ok o0 inv.agree hi
    refine ⟨w1, h1, inv_of o1 ?_ ?_ ?_, ?_⟩
    · exact inv.agree.put (.user i) _ none (by simp)
    · rw [update_of_ne (by simp)]; exact inv.param
    · rw [update_of_ne (by simp)]; exact inv.tmp
    · rw [view_out o1, seen_put]; rfl
  | assignClosure i ty v ok =>
    obtain ⟨l1, l2⟩ := legal
    obtain ⟨tab, hi⟩ := legal_some l1
    cases ok with
    | true =>
      obtain ⟨w1, h1, o1⟩ := closureCtor_ok v o0 inv.agree inv.param l2
      have ag1 := inv.agree.put .param ((view w).dim i) (some (ty, v))
        (by rintro p hp; obtain rfl := Option.some.inj hp; exact l2)
      obtain ⟨w2, h2, o2⟩ := assignBody_ok (i := .user i) (d := (view w).dim i) (tab := tab)
        (e := (view w).dim i) (ptab := some ty) o1 ag1 (by simp)
        (by rw [update_of_ne (by simp)]; exact hi) (by rw [update_self])
        (by rintro p hp; rw [update_self] at hp; obtain rfl := Option.some.inj hp; exact l2)
      refine ⟨w2, ?_, inv_of o2 ?_ ?_ ?_, ?_⟩
      · unfold step
        simp only [bind, Option.bind, hi, h1, if_true]
        exact h2
      · refine Agree.drop (ag1.put (.user i) ((view w).dim i) _ ?_) .param
        rintro p hp; rw [update_self] at hp; obtain rfl := Option.some.inj hp; exact l2
      · rw [update_self]
      · rw [update_of_ne (by simp), update_of_ne (by simp), update_of_ne (by simp)]; exact inv.tmp
      · rw [view_out o2, seen_other _ _ _ _ _ _ param_ne, seen_put, seen_other _ _ _ _ _ _ param_ne, update_self]
        rfl
    | false =>
      obtain ⟨w1, h1, o1⟩ := closureCtor_throws (ty := ty) (d := (view w).dim i) v o0 inv.param
      refine ⟨w1, ?_, inv_of o1 inv.agree inv.param inv.tmp, by rw [view_out o1]; rfl⟩
      unfold step
      simp only [bind, Option.bind, hi, h1]
      rfl
  | assignCopy i j ok =>
    obtain ⟨l1, l2, l3⟩ := legal
    obtain ⟨tab, hi⟩ := legal_some l1
    obtain ⟨tab', hj⟩ := legal_some l2
    obtain ⟨w1, h1, o1⟩ := copyCtor_ok (i := .param) (j := .user j) ok o0 inv.agree inv.param hj l3
    have fitj : ∀ p, cv w (.user j) = some p → Fits p.1 ((view w).dim i) :=
      fun p hp => fits_of_holds ((inv.agree.of hj).2 p hp) l3
    by_cases hb : (ok || (cv w (.user j)).isNone) = true
    · rw [if_pos hb, if_pos hb] at o1
      have ag1 := inv.agree.put .param ((view w).dim i) (cv w (.user j)) fitj
      obtain ⟨w2, h2, o2⟩ := assignBody_ok (i := .user i) (d := (view w).dim i) (tab := tab)
        (e := (view w).dim i) (ptab := (cv w (.user j)).map Prod.fst) o1 ag1 (by simp)
        (by rw [update_of_ne (by simp)]; exact hi) (by rw [update_self])
        (by rintro p hp; rw [update_self] at hp; exact fitj p hp)
      refine ⟨w2, ?_, inv_of o2 ?_ ?_ ?_, ?_⟩
      · unfold step
        simp only [bind, Option.bind, hi, h1]
        rw [if_pos (by rw [o1.fns, update_self]; rfl)]
        exact h2
      · refine Agree.drop (ag1.put (.user i) ((view w).dim i) _ ?_) .param
        rintro p hp; rw [update_self] at hp; exact fitj p hp
      · rw [update_self]
      · rw [update_of_ne (by simp), update_of_ne (by simp), update_of_ne (by simp)]; exact inv.tmp
      · rw [view_out o2, seen_other _ _ _ _ _ _ param_ne, seen_put, seen_other _ _ _ _ _ _ param_ne, update_self]
        simp only [mean, holding_eq inv]
        rw [if_pos hb]; rfl
    · rw [if_neg hb, if_neg hb] at o1
      refine ⟨w1, ?_, inv_of o1 inv.agree inv.param inv.tmp, ?_⟩
      · unfold step
        simp only [bind, Option.bind, hi, h1]
        rw [if_neg (by rw [o1.fns, inv.param]; simp)]
      · rw [view_out o1]
        simp only [mean, holding_eq inv]
        rw [if_neg hb]; rfl
  | assignMove i j =>
    obtain ⟨l1, l2, l3⟩ := legal
    obtain ⟨tab, hi⟩ := legal_some l1
    obtain ⟨tab', hj⟩ := legal_some l2
    obtain ⟨w1, h1, o1⟩ := moveCtor_ok (i := .param) (j := .user j) o0 inv.agree (by simp) inv.param hj l3
    have fitj : ∀ p, cv w (.user j) = some p → Fits p.1 ((view w).dim i) :=
      fun p hp => fits_of_holds ((inv.agree.of hj).2 p hp) l3
    have ag1 := (inv.agree.put .param ((view w).dim i) (cv w (.user j)) fitj).put (.user j) ((view w).dim j) none
      (by simp)
    have cp : update (update (cv w) .param (cv w (.user j))) (.user j) none .param = cv w (.user j) := by
      rw [update_of_ne (by simp), update_self]
    obtain ⟨tab1, hi1⟩ : ∃ tab1, update (update w.fns .param (some ((view w).dim i, (cv w (.user j)).map Prod.fst)))
        (.user j) (some ((view w).dim j, none)) (.user i) = some ((view w).dim i, tab1) := by
      by_cases hij : i = j
      · subst hij; exact ⟨none, by rw [update_self]⟩
      · exact ⟨tab, by rw [update_of_ne (user_ne hij), update_of_ne (by simp)]; exact hi⟩
    obtain ⟨w2, h2, o2⟩ := assignBody_ok (i := .user i) (d := (view w).dim i) (tab := tab1)
      (e := (view w).dim i) (ptab := (cv w (.user j)).map Prod.fst) o1 ag1 (by simp) hi1
      (by rw [update_of_ne (by simp), update_self])
      (by rintro p hp; rw [cp] at hp; exact fitj p hp)
    refine ⟨w2, ?_, inv_of o2 ?_ ?_ ?_, ?_⟩
    · unfold step
      simp only [bind, Option.bind, hi, h1]
      exact h2
    · refine Agree.drop (ag1.put (.user i) ((view w).dim i) _ ?_) .param
      rintro p hp; rw [cp] at hp; exact fitj p hp
    · rw [update_self]
    · rw [update_of_ne (by simp), update_of_ne (by simp), update_of_ne (by simp), update_of_ne (by simp)]; exact inv.tmp
    · rw [view_out o2, seen_other _ _ _ _ _ _ param_ne, seen_put, seen_put, seen_other _ _ _ _ _ _ param_ne, cp]
      simp only [mean, holding_eq inv, State.hold]
      have : ((view w).set j (some ((view w).dim j, none))).dim i = (view w).dim i := by
        by_cases hij : i = j
        · subst hij; exact dim_set_self _ _ _ _
        · exact dim_set_ne _ _ hij
      rw [this]; rfl
  | swap i j =>
    obtain ⟨l1, l2, l3⟩ := legal
    obtain ⟨tab, hi⟩ := legal_some l1
    obtain ⟨tab', hj⟩ := legal_some l2
    by_cases hij : i = j
    · subst hij
      refine ⟨w, by simp [step, Modm.InplaceFunction.swap], inv, ?_⟩
      simp only [mean]
      rw [hold_self _ _ l1, hold_self _ _ l1]
    · have hj' : w.fns (.user j) = some ((view w).dim i, tab') := by rw [l3]; exact hj
      obtain ⟨w1, h1, o1⟩ := swap_ok o0 inv.agree (by simp) (by simp) (user_ne hij) inv.tmp hi hj'
      refine ⟨w1, h1, inv_of o1 ?_ ?_ ?_, ?_⟩
      · exact (inv.agree.put (.user j) _ _ (inv.agree.of hi).2).put (.user i) _ _ (inv.agree.of hj').2
      · rw [update_of_ne (by simp), update_of_ne (by simp)]; exact inv.param
      · rw [update_of_ne (by simp), update_of_ne (by simp)]; exact inv.tmp
      · rw [view_out o1, seen_put, seen_put]
        simp only [mean, holding_eq inv, State.hold]
        rw [dim_set_ne _ _ hij, ← l3]; rfl
  | call i arg =>
    obtain ⟨tab, hi⟩ := legal_some legal
    obtain ⟨ht, hfit⟩ := inv.agree.of hi
    cases hc : cv w (.user i) with
    | none =>
      rw [hc] at ht
      subst ht
      refine ⟨{ w with out := none :: w.out }, ?_, ?_, ?_⟩
      · simp only [step, call, bind, Option.bind, hi]
        rfl
      · exact ⟨⟨inv.ledger.lt, inv.ledger.uniq, inv.ledger.nodup, inv.ledger.bound, inv.ledger.owned⟩,
          inv.agree, inv.param, inv.tmp⟩
      · simp only [mean, holding_eq inv, hc]; rfl
    | some p =>
      rw [hc] at ht
      have ht' : tab = some p.1 := ht
      subst ht'
      obtain ⟨o, ho, hv, hcell, hty⟩ := objAt_ok (ty := p.1) (v := p.2) o0 hc
      have hcv : cv { w with
          cell := Function.update w.cell (.user i) (some { o with val := (f p.1 o.val arg).2 })
          out := some (f p.1 o.val arg).1 :: w.out } =
          update (cv w) (.user i) (some (p.1, (f p.1 o.val arg).2)) := by
        funext k
        unfold cv
        by_cases hk : k = .user i
        · subst hk; simp [hty]
        · simp [update_of_ne hk]
      refine ⟨{ w with
          cell := Function.update w.cell (.user i) (some { o with val := (f p.1 o.val arg).2 })
          out := some (f p.1 o.val arg).1 :: w.out }, ?_, ⟨⟨?_, ?_, inv.ledger.nodup, inv.ledger.bound, ?_⟩, ?_, inv.param, inv.tmp⟩, ?_⟩
      · simp only [step, call, bind, Option.bind, hi, ho]
      · intro k q hq
        dsimp only at hq
        by_cases hk : k = .user i
        · subst hk; rw [update_self] at hq; obtain rfl := Option.some.inj hq; exact inv.ledger.lt _ o hcell
        · rw [update_of_ne hk] at hq; exact inv.ledger.lt k q hq
      · intro k m q s hq hs he
        dsimp only at hq hs
        by_cases hk : k = .user i
        · by_cases hm : m = .user i
          · rw [hk, hm]
          · subst hk; rw [update_self] at hq; obtain rfl := Option.some.inj hq
            rw [update_of_ne hm] at hs
            exact inv.ledger.uniq _ m o s hcell hs he
        · rw [update_of_ne hk] at hq
          by_cases hm : m = .user i
          · subst hm; rw [update_self] at hs; obtain rfl := Option.some.inj hs
            exact inv.ledger.uniq k _ q o hq hcell he
          · rw [update_of_ne hm] at hs; exact inv.ledger.uniq k m q s hq hs he
      · intro x hx hnx
        obtain ⟨k, q, hq, hid⟩ := inv.ledger.owned x hx hnx
        by_cases hk : k = .user i
        · subst hk
          rw [hcell] at hq; obtain rfl := Option.some.inj hq
          exact ⟨.user i, { o with val := (f p.1 o.val arg).2 }, by simp, hid⟩
        · exact ⟨k, q, by dsimp only; rw [update_of_ne hk]; exact hq, hid⟩
      · rw [hcv]
        have := inv.agree.put (.user i) ((view w).dim i) (some (p.1, (f p.1 o.val arg).2))
          (by rintro q hq; obtain rfl := Option.some.inj hq; exact hfit p hc)
        have e : update w.fns (.user i) (some ((view w).dim i, (some (p.1, (f p.1 o.val arg).2)).map Prod.fst)) =
            w.fns := by
          have : some ((view w).dim i, (some (p.1, (f p.1 o.val arg).2)).map Prod.fst) = w.fns (.user i) := hi.symm
          rw [this]; exact update_eq_self _ _
        rw [e] at this
        exact this
      · simp only [mean, holding_eq inv, hc]
        rw [hv] at hcv ⊢
        have e : w.fns = update w.fns (.user i) (some ((view w).dim i, some p.1)) := by
          rw [← hi]; exact (update_eq_self _ _).symm
        have e2 : seen w.fns (update (cv w) (.user i) (some (p.1, (f p.1 p.2 arg).2)))
            (some (f p.1 p.2 arg).1 :: w.out) =
            (seen w.fns (cv w) (some (f p.1 p.2 arg).1 :: w.out)).set i
              (some ((view w).dim i, some (p.1, (f p.1 p.2 arg).2))) := by
          have e3 := seen_put w.fns (cv w) (some (f p.1 p.2 arg).1 :: w.out) i ((view w).dim i) (some p.1)
            (some (p.1, (f p.1 p.2 arg).2))
          rw [← e] at e3
          exact e3
        rw [← hcv] at e2
        exact e2
  | destroy i =>
    obtain ⟨tab, hi⟩ := legal_some legal
    obtain ⟨w1, h1, o1⟩ := dtor_ok o0 hi (inv.agree.of hi).1
    refine ⟨w1, h1, inv_of o1 ?_ ?_ ?_, ?_⟩
    · exact inv.agree.drop _
    · rw [update_of_ne (by simp)]; exact inv.param
    · rw [update_of_ne (by simp)]; exact inv.tmp
    · rw [view_out o1, seen_drop]; rfl

private theorem inv_start : Inv Modm.InplaceFunction.start := by
  refine ⟨?_, ?_, rfl, rfl⟩
  · constructor <;> simp [Modm.InplaceFunction.start]
  · intro i; rfl

private theorem run_ok (f : Calls) (ops : List Op) : ∀ {w : World}, Inv w → LegalRun f (view w) ops →
    ∃ w', run f w ops = some w' ∧ Inv w' ∧ view w' = meanAll f (view w) ops := by
  induction ops with
  | nil => intro w inv _; exact ⟨w, rfl, inv, rfl⟩
  | cons op ops ih =>
    intro w inv hr
    obtain ⟨l1, l2⟩ := hr
    obtain ⟨w1, h1, inv1, hv⟩ := step_ok f op inv l1
    rw [← hv] at l2
    obtain ⟨w2, h2, inv2, hv2⟩ := ih inv1 l2
    refine ⟨w2, by simp [run, h1, h2], inv2, ?_⟩
    rw [hv2, hv]; rfl

/-- C185: whatever a program does with containers of functions - constructing, copying, moving, assigning also to
themselves, from containers of other sizes or from what throws, swapping, emptying, calling, destroying -, nothing is
undefined; each call gives the result of the function the container is to hold, and calls of empty containers are
reported; the containers hold what they are to hold, and are unequal to the null pointer exactly when they hold
something; each object constructed is destroyed at most once and lives in exactly one container until then; and when
all containers are gone each has been destroyed exactly once. -/
theorem C185_function (f : Calls) (ops : List Op) (h : LegalRun f Spec.InplaceFunction.start ops) :
    ∃ w, run f Modm.InplaceFunction.start ops = some w ∧ view w = meanAll f Spec.InplaceFunction.start ops ∧
      (∀ i d x, (meanAll f Spec.InplaceFunction.start ops).fns i = some (d, x) → isSet w i = some x.isSome) ∧
      Accounted w ∧ ((∀ i, (view w).fns i = none) → Balanced w) := by
  obtain ⟨w, hr, inv, hv⟩ := run_ok f ops inv_start h
  have hv' : view w = meanAll f Spec.InplaceFunction.start ops := hv
  have home : ∀ x < w.next, x ∉ w.dead →
      ∃ i : Nat, w.fns (.user i) ≠ none ∧ ∃ o, w.cell (.user i) = some o ∧ o.id = x := by
    intro x hx hnx
    obtain ⟨k, o, ho, hid⟩ := inv.ledger.owned x hx hnx
    have hne : w.fns k ≠ none := by
      intro hn
      have := cv_none (inv.agree.none hn)
      rw [this] at ho; simp at ho
    cases k with
    | user i => exact ⟨i, hne, o, ho, hid⟩
    | param => exact absurd inv.param hne
    | tmp => exact absurd inv.tmp hne
  refine ⟨w, hr, hv', ?_, ⟨inv.ledger.nodup, inv.ledger.bound, ?_⟩, ?_⟩
  · intro i d x hx
    rw [← hv'] at hx
    unfold isSet
    simp only [view] at hx
    cases hi : w.fns (.user i) with
    | none => simp [hi] at hx
    | some p =>
      simp only [hi, Option.map_some, Option.some.injEq, Prod.mk.injEq] at hx
      obtain ⟨-, rfl⟩ := hx
      have := (inv.agree.of (d := p.1) (tab := p.2) hi).1
      simp only [Option.map_some, this, cv]
      cases w.cell (.user i) <;> rfl
  · intro x hx hnx
    obtain ⟨i, hne, o, ho, hid⟩ := home x hx hnx
    refine ⟨i, ⟨hne, o, ho, hid⟩, ?_⟩
    rintro j ⟨-, p, hp, hidp⟩
    exact Var.user.inj (inv.ledger.uniq _ _ p o hp ho (by rw [hidp, hid]))
  · intro hall
    refine ⟨inv.ledger.nodup, fun x => ⟨inv.ledger.bound x, fun hx => ?_⟩⟩
    by_contra hnx
    obtain ⟨i, hne, -⟩ := home x hx hnx
    exact hne (legal_none (hall i))

/-- A counter which adds its argument. -/
private def adds : Calls := fun _ v a => (v + a, v + a)

private def lam : Ty := ⟨1, 8, 4⟩

private def prog : List Op :=
  [.closureCtor 0 (8, 4) lam 10 true, .call 0 5, .copyCtor 1 (16, 8) 0 true, .call 0 1, .call 1 2, .defaultCtor 2 (8, 4),
   .swap 0 2, .call 0 9, .assignMove 2 2, .assignCopy 1 2 false, .call 1 0, .assignMove 0 2, .call 0 0, .assignNull 0,
   .assignClosure 2 lam 7 true, .destroy 0, .destroy 1, .destroy 2]

example : LegalRun adds Spec.InplaceFunction.start prog ∧
    (meanAll adds Spec.InplaceFunction.start prog).out = [some 16, some 17, none, some 17, some 16, some 15] ∧
    (run adds Modm.InplaceFunction.start prog).map (fun w => (w.next, w.dead)) =
      some (10, [9, 1, 8, 7, 6, 5, 4, 3, 2, 0]) := by
  refine ⟨by decide +kernel, by decide +kernel, by decide +kernel⟩

end Props.InplaceFunction
