import Verif.Spec.InplaceFunction
set_option autoImplicit false

/-!
# Lemmas on `inplace_function`: what each function does to the objects, the tables and the storages
-/

namespace Modm.InplaceFunction

open Spec.InplaceFunction Function

/-- The account of the objects. -/
structure Ledger (w : World) : Prop where
  lt : ∀ i o, w.cell i = some o → o.id < w.next ∧ o.id ∉ w.dead
  uniq : ∀ i j o p, w.cell i = some o → w.cell j = some p → o.id = p.id → i = j
  nodup : w.dead.Nodup
  bound : ∀ x ∈ w.dead, x < w.next
  owned : ∀ x < w.next, x ∉ w.dead → ∃ i o, w.cell i = some o ∧ o.id = x

/-- What the storages hold. -/
def cv (w : World) : Var → Holding := fun i => (w.cell i).map (fun o => (o.ty, o.val))

/-- The account, the tables, the storages and the results after a function. -/
structure Out (w : World) (F : Var → Option (Dim × Option Ty)) (C : Var → Holding) (r : List (Option Nat)) : Prop where
  ledger : Ledger w
  fns : w.fns = F
  cells : cv w = C
  out : w.out = r

theorem cv_none {w : World} {i : Var} (h : cv w i = none) : w.cell i = none := by
  unfold cv at h; simpa using h

theorem cv_some {w : World} {i : Var} {p : Ty × Nat} (h : cv w i = some p) :
    ∃ o, w.cell i = some o ∧ o.ty = p.1 ∧ o.val = p.2 := by
  unfold cv at h
  cases hc : w.cell i with
  | none => simp [hc] at h
  | some o => simp only [hc, Option.map_some, Option.some.injEq] at h; exact ⟨o, rfl, by rw [← h], by rw [← h]⟩

theorem newAt_ok {w : World} {i : Var} {F : Var → Option (Dim × Option Ty)} {C : Var → Holding} {r : List (Option Nat)}
    {d : Dim} {tab : Option Ty} {ty : Ty} (v : Nat) (h : Out w F C r) (hf : F i = some (d, tab)) (hc : C i = none)
    (fit : Fits ty d) : ∃ w', newAt w i ty v = some w' ∧ Out w' F (update C i (some (ty, v))) r := by
  obtain ⟨l, rfl, rfl, rfl⟩ := h
  have hcell := cv_none hc
  refine ⟨{ w with cell := Function.update w.cell i (some ⟨w.next, ty, v⟩), next := w.next + 1 }, ?_, ?_⟩
  · unfold newAt
    simp only [hf]
    rw [if_pos ⟨hcell, fit.1, fit.2⟩]
  · refine ⟨⟨?_, ?_, l.nodup, fun x hx => Nat.lt_succ_of_lt (l.bound x hx), ?_⟩, rfl, ?_, rfl⟩
    · intro k o ho
      dsimp only at ho
      by_cases hk : k = i
      · subst hk
        simp only [update_self, Option.some.injEq] at ho; subst ho
        exact ⟨Nat.lt_succ_self _, fun hm => absurd (l.bound _ hm) (Nat.lt_irrefl _)⟩
      · rw [update_of_ne hk] at ho
        exact ⟨Nat.lt_succ_of_lt (l.lt k o ho).1, (l.lt k o ho).2⟩
    · intro k m o p ho hp he
      dsimp only at ho hp
      by_cases hk : k = i
      · by_cases hm : m = i
        · rw [hk, hm]
        · subst hk
          simp only [update_self, Option.some.injEq] at ho; subst ho
          rw [update_of_ne hm] at hp
          have := (l.lt m p hp).1
          simp only at he; omega
      · rw [update_of_ne hk] at ho
        by_cases hm : m = i
        · subst hm
          simp only [update_self, Option.some.injEq] at hp; subst hp
          have := (l.lt k o ho).1
          simp only at he; omega
        · rw [update_of_ne hm] at hp
          exact l.uniq k m o p ho hp he
    · intro x hx hnx
      by_cases hxe : x = w.next
      · exact ⟨i, ⟨w.next, ty, v⟩, by simp, hxe.symm⟩
      · obtain ⟨k, o, ho, hid⟩ := l.owned x (by simp only at hx; omega) hnx
        have hk : k ≠ i := by intro hk; rw [hk, hcell] at ho; simp at ho
        exact ⟨k, o, by dsimp only; rw [update_of_ne hk]; exact ho, hid⟩
    · funext k
      unfold cv
      by_cases hk : k = i
      · subst hk; simp
      · simp [update_of_ne hk]

theorem delAt_ok {w : World} {i : Var} {F : Var → Option (Dim × Option Ty)} {C : Var → Holding} {r : List (Option Nat)}
    {ty : Ty} {v : Nat} (h : Out w F C r) (hc : C i = some (ty, v)) :
    ∃ w', delAt w i ty = some w' ∧ Out w' F (update C i none) r := by
  obtain ⟨l, rfl, rfl, rfl⟩ := h
  obtain ⟨o, ho, hty, -⟩ := cv_some hc
  refine ⟨{ w with cell := Function.update w.cell i none, dead := o.id :: w.dead }, ?_, ?_⟩
  · unfold delAt
    simp only [ho, hty, if_true]
  · refine ⟨⟨?_, ?_, List.nodup_cons.mpr ⟨(l.lt i o ho).2, l.nodup⟩, ?_, ?_⟩, rfl, ?_, rfl⟩
    · intro k p hp
      dsimp only at hp
      by_cases hk : k = i
      · subst hk; simp at hp
      · rw [update_of_ne hk] at hp
        refine ⟨(l.lt k p hp).1, ?_⟩
        simp only [List.mem_cons, not_or]
        exact ⟨fun he => hk (l.uniq k i p o hp ho he), (l.lt k p hp).2⟩
    · intro k m p q hp hq he
      dsimp only at hp hq
      by_cases hk : k = i
      · subst hk; simp at hp
      · by_cases hm : m = i
        · subst hm; simp at hq
        · rw [update_of_ne hk] at hp; rw [update_of_ne hm] at hq
          exact l.uniq k m p q hp hq he
    · intro x hx
      simp only [List.mem_cons] at hx
      rcases hx with rfl | hx
      · exact (l.lt i o ho).1
      · exact l.bound x hx
    · intro x hx hnx
      simp only [List.mem_cons, not_or] at hnx
      obtain ⟨k, p, hp, hid⟩ := l.owned x hx hnx.2
      have hk : k ≠ i := by
        intro hk
        rw [hk, ho] at hp
        simp only [Option.some.injEq] at hp
        subst hp
        exact hnx.1 hid.symm
      exact ⟨k, p, by dsimp only; rw [update_of_ne hk]; exact hp, hid⟩
    · funext k
      unfold cv
      by_cases hk : k = i
      · subst hk; simp
      · simp [update_of_ne hk]

theorem objAt_ok {w : World} {i : Var} {F : Var → Option (Dim × Option Ty)} {C : Var → Holding} {r : List (Option Nat)}
    {ty : Ty} {v : Nat} (h : Out w F C r) (hc : C i = some (ty, v)) :
    ∃ o, objAt w i ty = some o ∧ o.val = v ∧ w.cell i = some o ∧ o.ty = ty := by
  obtain ⟨l, rfl, rfl, rfl⟩ := h
  obtain ⟨o, ho, hty, hv⟩ := cv_some hc
  refine ⟨o, ?_, hv, ho, hty⟩
  unfold objAt
  simp only [ho, hty, if_true]

theorem relocate_ok {w : World} {i j : Var} {F : Var → Option (Dim × Option Ty)} {C : Var → Holding}
    {r : List (Option Nat)} {d : Dim} {tab tab' : Option Ty} (h : Out w F C r) (hij : i ≠ j) (hf : F i = some (d, tab'))
    (hc : C i = none) (ht : tab = (C j).map Prod.fst) (fit : ∀ p, C j = some p → Fits p.1 d) :
    ∃ w', relocatePtr tab w i j = some w' ∧ Out w' F (update (update C i (C j)) j none) r := by
  cases hj : C j with
  | none =>
    rw [hj] at ht
    subst ht
    refine ⟨w, rfl, ?_⟩
    have : update (update C i none) j none = C := by
      funext k
      by_cases hk : k = j
      · subst hk; simp [hj]
      · rw [update_of_ne hk]
        by_cases hk' : k = i
        · subst hk'; simp [hc]
        · rw [update_of_ne hk']
    rw [this]; exact h
  | some p =>
    rw [hj] at ht
    have ht' : tab = some p.1 := ht
    subst ht'
    obtain ⟨o, ho, hv, -⟩ := objAt_ok (ty := p.1) (v := p.2) h hj
    obtain ⟨w1, h1, o1⟩ := newAt_ok o.val h hf hc (fit p hj)
    obtain ⟨w2, h2, o2⟩ := delAt_ok (i := j) (ty := p.1) (v := p.2) o1 (by rw [update_of_ne (Ne.symm hij)]; exact hj)
    refine ⟨w2, ?_, ?_⟩
    · unfold relocatePtr
      simp only [bind, Option.bind, ho, h1, h2]
    · rw [hv] at o2; exact o2

theorem destructor_ok {w : World} {i : Var} {F : Var → Option (Dim × Option Ty)} {C : Var → Holding}
    {r : List (Option Nat)} {tab : Option Ty} (h : Out w F C r) (ht : tab = (C i).map Prod.fst) :
    ∃ w', destructorPtr tab w i = some w' ∧ Out w' F (update C i none) r := by
  cases hi : C i with
  | none =>
    rw [hi] at ht
    subst ht
    refine ⟨w, rfl, ?_⟩
    have : update C i none = C := by rw [← hi]; exact update_eq_self i C
    rw [this]; exact h
  | some p =>
    rw [hi] at ht
    have ht' : tab = some p.1 := ht
    subst ht'
    exact delAt_ok (v := p.2) h hi

theorem setTab_ok {w : World} {i : Var} {F : Var → Option (Dim × Option Ty)} {C : Var → Holding}
    {r : List (Option Nat)} {d : Dim} {tab : Option Ty} (tab' : Option Ty) (h : Out w F C r) (hf : F i = some (d, tab)) :
    ∃ w', setTab w i tab' = some w' ∧ Out w' (update F i (some (d, tab'))) C r := by
  obtain ⟨l, rfl, rfl, rfl⟩ := h
  refine ⟨{ w with fns := Function.update w.fns i (some (d, tab')) }, ?_, ?_⟩
  · unfold setTab; simp only [hf]
  · exact ⟨⟨l.lt, l.uniq, l.nodup, l.bound, l.owned⟩, rfl, rfl, rfl⟩

theorem declare_ok {w : World} (i : Var) {F : Var → Option (Dim × Option Ty)} {C : Var → Holding}
    {r : List (Option Nat)} (d : Dim) (tab : Option Ty) (h : Out w F C r) :
    Out (declare w i d tab) (update F i (some (d, tab))) C r := by
  obtain ⟨l, rfl, rfl, rfl⟩ := h
  exact ⟨⟨l.lt, l.uniq, l.nodup, l.bound, l.owned⟩, rfl, rfl, rfl⟩

theorem undeclare_ok {w : World} (i : Var) {F : Var → Option (Dim × Option Ty)} {C : Var → Holding}
    {r : List (Option Nat)} (h : Out w F C r) : Out (undeclare w i) (update F i none) C r := by
  obtain ⟨l, rfl, rfl, rfl⟩ := h
  exact ⟨⟨l.lt, l.uniq, l.nodup, l.bound, l.owned⟩, rfl, rfl, rfl⟩

/-- Tables and storages agree, what a storage holds fits, and what does not live holds nothing. -/
def Agree (F : Var → Option (Dim × Option Ty)) (C : Var → Holding) : Prop :=
  ∀ i, match F i with
    | none => C i = none
    | some (d, tab) => tab = (C i).map Prod.fst ∧ ∀ p, C i = some p → Fits p.1 d

theorem Agree.put {F : Var → Option (Dim × Option Ty)} {C : Var → Holding} (h : Agree F C) (i : Var) (d : Dim)
    (x : Holding) (fit : ∀ p, x = some p → Fits p.1 d) :
    Agree (update F i (some (d, x.map Prod.fst))) (update C i x) := by
  intro k
  by_cases hk : k = i
  · subst hk; simp only [update_self]; exact ⟨trivial, fit⟩
  · rw [update_of_ne hk, update_of_ne hk]; exact h k

theorem Agree.drop {F : Var → Option (Dim × Option Ty)} {C : Var → Holding} (h : Agree F C) (i : Var) :
    Agree (update F i none) (update C i none) := by
  intro k
  by_cases hk : k = i
  · subst hk; simp only [update_self]
  · rw [update_of_ne hk, update_of_ne hk]; exact h k

theorem Agree.of {F : Var → Option (Dim × Option Ty)} {C : Var → Holding} (h : Agree F C) {i : Var} {d : Dim}
    {tab : Option Ty} (hf : F i = some (d, tab)) : tab = (C i).map Prod.fst ∧ ∀ p, C i = some p → Fits p.1 d := by
  have := h i
  rw [hf] at this
  exact this

theorem Agree.none {F : Var → Option (Dim × Option Ty)} {C : Var → Holding} (h : Agree F C) {i : Var}
    (hf : F i = none) : C i = none := by
  have := h i
  rw [hf] at this
  exact this

theorem closureCtor_ok {w : World} {i : Var} {F : Var → Option (Dim × Option Ty)} {C : Var → Holding}
    {r : List (Option Nat)} {d : Dim} {ty : Ty} (v : Nat) (h : Out w F C r) (ag : Agree F C) (hf : F i = none)
    (fit : Fits ty d) : ∃ w', closureCtor w i d ty v true = some w' ∧
      Out w' (update F i (some (d, some ty))) (update C i (some (ty, v))) r := by
  have h1 := declare_ok i d (some ty) h
  exact newAt_ok (d := d) (tab := some ty) v h1 (update_self i _ F) (ag.none hf) fit

theorem closureCtor_throws {w : World} {i : Var} {F : Var → Option (Dim × Option Ty)} {C : Var → Holding}
    {r : List (Option Nat)} {d : Dim} {ty : Ty} (v : Nat) (h : Out w F C r) (hf : F i = none) :
    ∃ w', closureCtor w i d ty v false = some w' ∧ Out w' F C r := by
  have h1 := undeclare_ok i (declare_ok i d (some ty) h)
  refine ⟨_, rfl, ?_⟩
  have : update (update F i (some (d, some ty))) i none = F := by
    rw [update_idem, ← hf]; exact update_eq_self i F
  rw [this] at h1
  exact h1

theorem copyCtor_ok {w : World} {i j : Var} {F : Var → Option (Dim × Option Ty)} {C : Var → Holding}
    {r : List (Option Nat)} {d e : Dim} {tab : Option Ty} (ok : Bool) (h : Out w F C r) (ag : Agree F C)
    (hf : F i = none) (hj : F j = some (e, tab)) (hs : Holds d e) :
    ∃ w', copyCtor w i d j ok = some w' ∧
      Out w' (if ok || (C j).isNone then update F i (some (d, (C j).map Prod.fst)) else F)
        (if ok || (C j).isNone then update C i (C j) else C) r := by
  obtain ⟨ht, hfit⟩ := ag.of hj
  have h1 := declare_ok i d tab h
  have hjw : w.fns j = some (e, tab) := by rw [h.fns]; exact hj
  have hci := ag.none hf
  cases hcj : C j with
  | none =>
    rw [hcj] at ht
    subst ht
    refine ⟨declare w i d none, ?_, ?_⟩
    · unfold copyCtor
      simp only [bind, Option.bind, hjw]
      rfl
    · have : update C i none = C := by rw [← hci]; exact update_eq_self i C
      simp only [Option.isNone_none, Bool.or_true, if_true, Option.map_none, this]
      exact h1
  | some p =>
    rw [hcj] at ht
    have ht' : tab = some p.1 := ht
    subst ht'
    obtain ⟨o, ho, hv, -⟩ := objAt_ok (ty := p.1) (v := p.2) h1 hcj
    cases ok with
    | true =>
      obtain ⟨w2, h2, o2⟩ := newAt_ok o.val h1 (update_self i _ F) hci
        (ty := p.1) ⟨Nat.le_trans (hfit p hcj).1 hs.1, Nat.dvd_trans (hfit p hcj).2 hs.2⟩
      refine ⟨w2, ?_, ?_⟩
      · unfold copyCtor copyPtr
        simp only [bind, Option.bind, hjw, ho, if_true, h2]
        rw [if_neg (by simp)]
      · rw [hv] at o2
        simpa using o2
    | false =>
      have h3 := undeclare_ok i h1
      refine ⟨undeclare (declare w i d (some p.1)) i, ?_, ?_⟩
      · unfold copyCtor copyPtr
        simp only [bind, Option.bind, hjw, ho, Bool.false_eq_true, if_false]
        rw [if_pos (by simp)]
      · have : update (update F i (some (d, some p.1))) i none = F := by
          rw [update_idem, ← hf]; exact update_eq_self i F
        rw [this] at h3
        simpa using h3

theorem moveCtor_ok {w : World} {i j : Var} {F : Var → Option (Dim × Option Ty)} {C : Var → Holding}
    {r : List (Option Nat)} {d e : Dim} {tab : Option Ty} (h : Out w F C r) (ag : Agree F C)
    (hij : i ≠ j) (hf : F i = none) (hj : F j = some (e, tab)) (hs : Holds d e) :
    ∃ w', moveCtor w i d j = some w' ∧
      Out w' (update (update F i (some (d, (C j).map Prod.fst))) j (some (e, none)))
        (update (update C i (C j)) j none) r := by
  obtain ⟨ht, hfit⟩ := ag.of hj
  have hjw : w.fns j = some (e, tab) := by rw [h.fns]; exact hj
  have hci := ag.none hf
  have h1 := declare_ok i d tab h
  have hfit' : ∀ p, C j = some p → Fits p.1 d := fun p hp =>
    ⟨Nat.le_trans (hfit p hp).1 hs.1, Nat.dvd_trans (hfit p hp).2 hs.2⟩
  have hji : update F i (some (d, tab)) j = some (e, tab) := by rw [update_of_ne (Ne.symm hij)]; exact hj
  rw [← ht]
  by_cases hde : d = e
  · obtain ⟨w2, h2, o2⟩ := setTab_ok none h1 hji
    obtain ⟨w3, h3, o3⟩ := relocate_ok o2 hij (d := d) (tab' := tab) (tab := tab)
      (by rw [update_of_ne hij, update_self]) hci ht hfit'
    refine ⟨w3, ?_, o3⟩
    unfold moveCtor
    simp only [bind, Option.bind, hjw]
    rw [if_pos hde]
    simp only [h2]
    exact h3
  · obtain ⟨w2, h2, o2⟩ := relocate_ok h1 hij (d := d) (tab' := tab) (tab := tab)
      (by rw [update_self]) hci ht hfit'
    obtain ⟨w3, h3, o3⟩ := setTab_ok none o2 hji
    refine ⟨w3, ?_, o3⟩
    unfold moveCtor
    simp only [bind, Option.bind, hjw]
    rw [if_neg hde]
    simp only [h2]
    exact h3

theorem dtor_ok {w : World} {i : Var} {F : Var → Option (Dim × Option Ty)} {C : Var → Holding}
    {r : List (Option Nat)} {d : Dim} {tab : Option Ty} (h : Out w F C r)
    (hf : F i = some (d, tab)) (ht : tab = (C i).map Prod.fst) :
    ∃ w', dtor w i = some w' ∧ Out w' (update F i none) (update C i none) r := by
  have hw : w.fns i = some (d, tab) := by rw [h.fns]; exact hf
  obtain ⟨w1, h1, o1⟩ := destructor_ok h ht
  refine ⟨undeclare w1 i, ?_, undeclare_ok i o1⟩
  unfold dtor
  simp only [bind, Option.bind, hw, h1]

theorem assignNull_ok {w : World} {i : Var} {F : Var → Option (Dim × Option Ty)} {C : Var → Holding}
    {r : List (Option Nat)} {d : Dim} {tab : Option Ty} (h : Out w F C r) (ag : Agree F C)
    (hf : F i = some (d, tab)) :
    ∃ w', assignNull w i = some w' ∧ Out w' (update F i (some (d, none))) (update C i none) r := by
  have hw : w.fns i = some (d, tab) := by rw [h.fns]; exact hf
  obtain ⟨w1, h1, o1⟩ := destructor_ok h (ag.of hf).1
  obtain ⟨w2, h2, o2⟩ := setTab_ok none o1 hf
  refine ⟨w2, ?_, o2⟩
  unfold assignNull
  simp only [bind, Option.bind, hw, h1, h2]

/-- The parameter is relocated into the container, then it is gone. -/
theorem assignBody_ok {w : World} {i : Var} {F : Var → Option (Dim × Option Ty)} {C : Var → Holding}
    {r : List (Option Nat)} {d e : Dim} {tab ptab : Option Ty} (h : Out w F C r) (ag : Agree F C) (hi : i ≠ .param)
    (hf : F i = some (d, tab)) (hp : F .param = some (e, ptab)) (fit : ∀ p, C .param = some p → Fits p.1 d) :
    ∃ w', assignBody w i = some w' ∧
      Out w' (update (update F i (some (d, (C .param).map Prod.fst))) .param none)
        (update (update C i (C .param)) .param none) r := by
  have hw : w.fns i = some (d, tab) := by rw [h.fns]; exact hf
  have htp := (ag.of hp).1
  obtain ⟨w1, h1, o1⟩ := destructor_ok h (ag.of hf).1
  have hw1 : w1.fns .param = some (e, ptab) := by rw [o1.fns]; exact hp
  obtain ⟨w2, h2, o2⟩ := setTab_ok ptab o1 hf
  have hp2 : update F i (some (d, ptab)) .param = some (e, ptab) := by rw [update_of_ne (Ne.symm hi)]; exact hp
  obtain ⟨w3, h3, o3⟩ := setTab_ok none o2 hp2
  have hc1 : update C i none .param = C .param := update_of_ne (Ne.symm hi) _ _
  obtain ⟨w4, h4, o4⟩ := relocate_ok (i := i) (j := .param) (tab := ptab) (tab' := ptab) (d := d) o3 hi
    (by rw [update_of_ne hi, update_self]) (by rw [update_self]) (by rw [hc1]; exact htp)
    (by rw [hc1]; exact fit)
  obtain ⟨w5, h5, o5⟩ := dtor_ok (i := .param) (d := e) (tab := none) o4 (by rw [update_self]) (by rw [update_self]; rfl)
  refine ⟨w5, ?_, ?_⟩
  · unfold assignBody
    simp only [bind, Option.bind, hw, h1, hw1, h2, h3, h4]
    exact h5
  · rw [hc1] at o5
    rw [← htp]
    simpa only [update_idem] using o5

theorem swap_ok {w : World} {i j : Var} {F : Var → Option (Dim × Option Ty)} {C : Var → Holding}
    {r : List (Option Nat)} {d : Dim} {tab tab' : Option Ty} (h : Out w F C r) (ag : Agree F C)
    (hi : i ≠ .tmp) (hj : j ≠ .tmp) (hij : i ≠ j) (htmp : F .tmp = none)
    (hfi : F i = some (d, tab)) (hfj : F j = some (d, tab')) :
    ∃ w', swap w i j = some w' ∧
      Out w' (update (update F j (some (d, (C i).map Prod.fst))) i (some (d, (C j).map Prod.fst)))
        (update (update C j (C i)) i (C j)) r := by
  obtain ⟨hti, fiti⟩ := ag.of hfi
  obtain ⟨htj, fitj⟩ := ag.of hfj
  have hwi : w.fns i = some (d, tab) := by rw [h.fns]; exact hfi
  have hwj : w.fns j = some (d, tab') := by rw [h.fns]; exact hfj
  have hct := ag.none htmp
  have o1 := declare_ok .tmp d none h
  obtain ⟨w2, h2, o2⟩ := relocate_ok (i := .tmp) (j := i) (d := d) (tab := tab) (tab' := none) o1 (Ne.symm hi)
    (by rw [update_self]) hct hti fiti
  have c2j : update (update C .tmp (C i)) i none j = C j := by
    rw [update_of_ne (Ne.symm hij), update_of_ne hj]
  obtain ⟨w3, h3, o3⟩ := relocate_ok (i := i) (j := j) (d := d) (tab := tab') (tab' := tab) o2 hij
    (by rw [update_of_ne hi]; exact hfi) (by rw [update_self]) (by rw [c2j]; exact htj) (by rw [c2j]; exact fitj)
  rw [c2j] at o3
  have c3t : update (update (update (update C .tmp (C i)) i none) i (C j)) j none .tmp = C i := by
    rw [update_of_ne (Ne.symm hj), update_of_ne (Ne.symm hi), update_of_ne (Ne.symm hi), update_self]
  obtain ⟨w4, h4, o4⟩ := relocate_ok (i := j) (j := .tmp) (d := d) (tab := tab) (tab' := tab') o3 hj
    (by rw [update_of_ne hj]; exact hfj) (by rw [update_self]) (by rw [c3t]; exact hti) (by rw [c3t]; exact fiti)
  rw [c3t] at o4
  obtain ⟨w5, h5, o5⟩ := setTab_ok (i := i) (d := d) (tab := tab) tab' o4 (by rw [update_of_ne hi]; exact hfi)
  obtain ⟨w6, h6, o6⟩ := setTab_ok (i := j) (d := d) (tab := tab') tab o5
    (by rw [update_of_ne (Ne.symm hij), update_of_ne hj]; exact hfj)
  have o7 := undeclare_ok .tmp o6
  refine ⟨undeclare w6 .tmp, ?_, ?_⟩
  · unfold swap
    rw [if_neg hij]
    simp only [bind, Option.bind, hwi, hwj, h2, h3, h4, h5, h6]
  · have eF : update (update (update (update F .tmp (some (d, none))) i (some (d, tab'))) j (some (d, tab))) .tmp none
        = update (update F j (some (d, (C i).map Prod.fst))) i (some (d, (C j).map Prod.fst)) := by
      rw [← hti, ← htj]
      funext k
      by_cases h1 : k = .tmp
      · subst h1; rw [update_self, update_of_ne (Ne.symm hi), update_of_ne (Ne.symm hj), htmp]
      · rw [update_of_ne h1]
        by_cases h2 : k = j
        · subst h2; rw [update_self, update_of_ne (Ne.symm hij), update_self]
        · rw [update_of_ne h2]
          by_cases h3 : k = i
          · subst h3; rw [update_self, update_self]
          · rw [update_of_ne h3, update_of_ne h1, update_of_ne h3, update_of_ne h2]
    have eC : update (update (update (update (update (update C .tmp (C i)) i none) i (C j)) j none) j (C i)) .tmp none
        = update (update C j (C i)) i (C j) := by
      funext k
      by_cases h1 : k = .tmp
      · subst h1; rw [update_self, update_of_ne (Ne.symm hi), update_of_ne (Ne.symm hj), hct]
      · rw [update_of_ne h1]
        by_cases h2 : k = j
        · subst h2; rw [update_self, update_of_ne (Ne.symm hij), update_self]
        · rw [update_of_ne h2, update_of_ne h2]
          by_cases h3 : k = i
          · subst h3; rw [update_self, update_self]
          · rw [update_of_ne h3, update_of_ne h3, update_of_ne h1, update_of_ne h3, update_of_ne h2]
    rw [eF, eC] at o7
    exact o7

end Modm.InplaceFunction
