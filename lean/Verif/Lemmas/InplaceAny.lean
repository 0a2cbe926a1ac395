import Verif.Spec.InplaceAny
set_option autoImplicit false

/-!
# Lemmas on `inplace_any`: what each function does to the objects and to what the variables hold
-/

namespace Modm.InplaceAny

open Spec.InplaceAny

/-- What holds between two uses. -/
structure Inv (t : Target) (w : World) : Prop where
  agree : ∀ i a, w.vars i = some a → a.handler = a.cell.map Obj.ty
  fits : ∀ i a o, w.vars i = some a → a.cell = some o → Fits t o.ty a.cap
  lt : ∀ i a o, w.vars i = some a → a.cell = some o → o.id < w.next ∧ o.id ∉ w.dead
  uniq : ∀ i j a b o p, w.vars i = some a → w.vars j = some b → a.cell = some o → b.cell = some p → o.id = p.id → i = j
  nodup : w.dead.Nodup
  bound : ∀ x ∈ w.dead, x < w.next
  owned : ∀ x < w.next, x ∉ w.dead → ∃ i a o, w.vars i = some a ∧ a.cell = some o ∧ o.id = x

/-- What the variables hold, with the local one. -/
def full (w : World) : Var → Option (Nat × Holding) :=
  fun i => (w.vars i).map (fun a => (a.cap, a.cell.map (fun o => (o.ty, o.val))))

def setAt (f : Var → Option (Nat × Holding)) (i : Var) (x : Option (Nat × Holding)) : Var → Option (Nat × Holding) :=
  fun k => if k = i then x else f k

theorem full_some {w : World} {i : Var} {c : Nat} {h : Holding} (e : full w i = some (c, h)) :
    ∃ a, w.vars i = some a ∧ a.cap = c ∧ a.cell.map (fun o => (o.ty, o.val)) = h := by
  unfold full at e
  cases hv : w.vars i with
  | none => simp [hv] at e
  | some a => simp only [hv, Option.map_some, Option.some.injEq, Prod.mk.injEq] at e; exact ⟨a, rfl, e⟩

theorem helperAlign_mono (t : Target) {c d : Nat} (h : c ≤ d) : helperAlign t c ∣ helperAlign t d := by
  unfold helperAlign
  induction t.scalars with
  | nil => simp
  | cons p l ih =>
    simp only [List.filter_cons]
    by_cases h1 : p.1 ≤ c
    · have h2 : p.1 ≤ d := le_trans h1 h
      simp only [h1, h2, decide_true, if_true, List.foldr_cons]
      exact Nat.lcm_dvd (Nat.dvd_lcm_left _ _) (Nat.dvd_trans ih (Nat.dvd_lcm_right _ _))
    · by_cases h2 : p.1 ≤ d
      · simp only [h1, h2, decide_true, decide_false, if_true, List.foldr_cons]
        exact Nat.dvd_trans ih (Nat.dvd_lcm_right _ _)
      · simpa [h1, h2] using ih

theorem anyAlign_mono (t : Target) {c d : Nat} (h : c ≤ d) : anyAlign t c ∣ anyAlign t d :=
  Nat.lcm_dvd (Nat.dvd_trans (helperAlign_mono t h) (Nat.dvd_lcm_left _ _)) (Nat.dvd_lcm_right _ _)

theorem Fits.mono {t : Target} {ty : Ty} {c d : Nat} (f : Fits t ty c) (h : c ≤ d) : Fits t ty d :=
  ⟨le_trans f.1 h, Nat.dvd_trans f.2 (anyAlign_mono t h)⟩

theorem destruct_ok {t : Target} {w : World} {i : Var} {c : Nat} {h : Holding} (inv : Inv t w)
    (e : full w i = some (c, h)) :
    ∃ w', destruct w i = some w' ∧ Inv t w' ∧ full w' = setAt (full w) i (some (c, none)) := by
  obtain ⟨a, ha, hc, hh⟩ := full_some e
  have hag := inv.agree i a ha
  cases hcell : a.cell with
  | none =>
    rw [hcell] at hag hh
    refine ⟨w, ?_, inv, ?_⟩
    · unfold destruct
      simp only [bind, Option.bind, ha, hag, Option.map_none]
    · funext k
      unfold setAt
      by_cases hk : k = i
      · subst hk; simp [e, ← hh]
      · simp [hk]
  | some o =>
    rw [hcell] at hag hh
    have hag' : a.handler = some o.ty := hag
    refine ⟨{ w.put i (some { a with cell := none, handler := none }) with dead := o.id :: w.dead }, ?_, ?_, ?_⟩
    · unfold destruct destroyObj clearHandler World.put
      simp only [bind, Option.bind, ha, hag', hcell, if_true]
      congr 2
      funext k
      by_cases hk : k = i <;> simp [hk]
    · obtain ⟨hlt, hnd⟩ := inv.lt i a o ha hcell
      constructor
      · intro k b hb
        simp only [World.put] at hb
        by_cases hk : k = i
        · simp only [hk, if_true, Option.some.injEq] at hb; subst hb; rfl
        · simp only [hk, if_false] at hb; exact inv.agree k b hb
      · intro k b p hb hp
        simp only [World.put] at hb
        by_cases hk : k = i
        · simp only [hk, if_true, Option.some.injEq] at hb; subst hb; simp at hp
        · simp only [hk, if_false] at hb; exact inv.fits k b p hb hp
      · intro k b p hb hp
        simp only [World.put] at hb
        by_cases hk : k = i
        · simp only [hk, if_true, Option.some.injEq] at hb; subst hb; simp at hp
        · simp only [hk, if_false] at hb
          obtain ⟨h1, h2⟩ := inv.lt k b p hb hp
          refine ⟨h1, ?_⟩
          simp only [List.mem_cons, not_or]
          exact ⟨fun he => hk (inv.uniq k i b a p o hb ha hp hcell he), h2⟩
      · intro k l b d p q hb hd hp hq he
        simp only [World.put] at hb hd
        by_cases hk : k = i
        · simp only [hk, if_true, Option.some.injEq] at hb; subst hb; simp at hp
        · by_cases hl : l = i
          · simp only [hl, if_true, Option.some.injEq] at hd; subst hd; simp at hq
          · simp only [hk, hl, if_false] at hb hd
            exact inv.uniq k l b d p q hb hd hp hq he
      · exact List.nodup_cons.mpr ⟨hnd, inv.nodup⟩
      · intro x hx
        simp only [List.mem_cons] at hx
        rcases hx with rfl | hx
        · exact hlt
        · exact inv.bound x hx
      · intro x hx hnx
        simp only [World.put, List.mem_cons, not_or] at hx hnx
        obtain ⟨k, b, p, hb, hp, hid⟩ := inv.owned x hx hnx.2
        have hk : k ≠ i := by
          intro hk
          rw [hk, ha] at hb
          simp only [Option.some.injEq] at hb
          subst hb
          rw [hcell] at hp
          simp only [Option.some.injEq] at hp
          subst hp
          exact hnx.1 hid.symm
        exact ⟨k, b, p, by simp only [World.put, hk, if_false]; exact hb, hp, hid⟩
    · funext k
      unfold full setAt World.put
      by_cases hk : k = i
      · simp [hk, hc]
      · simp [hk]

theorem construct_ok {t : Target} {w : World} {i : Var} {c : Nat} {ty : Ty} (v : Option Nat) (inv : Inv t w)
    (e : full w i = some (c, none)) (f : Fits t ty c) :
    ∃ w', construct t w i ty v = some w' ∧ Inv t w' ∧ full w' = setAt (full w) i (some (c, some (ty, v))) := by
  obtain ⟨a, ha, hc, hh⟩ := full_some e
  have hcell : a.cell = none := by simpa using hh
  subst hc
  refine ⟨{ w.put i (some { a with cell := some ⟨w.next, ty, v⟩, handler := some ty }) with next := w.next + 1 },
    ?_, ?_, ?_⟩
  · unfold construct
    simp only [ha]
    rw [if_pos ⟨hcell, f.1, f.2⟩]
  · constructor
    · intro k b hb
      simp only [World.put] at hb
      by_cases hk : k = i
      · simp only [hk, if_true, Option.some.injEq] at hb; subst hb; rfl
      · simp only [hk, if_false] at hb; exact inv.agree k b hb
    · intro k b p hb hp
      simp only [World.put] at hb
      by_cases hk : k = i
      · simp only [hk, if_true, Option.some.injEq] at hb; subst hb
        simp only [Option.some.injEq] at hp; subst hp; exact f
      · simp only [hk, if_false] at hb; exact inv.fits k b p hb hp
    · intro k b p hb hp
      simp only [World.put] at hb
      by_cases hk : k = i
      · simp only [hk, if_true, Option.some.injEq] at hb; subst hb
        simp only [Option.some.injEq] at hp; subst hp
        exact ⟨Nat.lt_succ_self _, fun hm => absurd (inv.bound _ hm) (Nat.lt_irrefl _)⟩
      · simp only [hk, if_false] at hb
        obtain ⟨h1, h2⟩ := inv.lt k b p hb hp
        exact ⟨Nat.lt_succ_of_lt h1, h2⟩
    · intro k l b d p q hb hd hp hq he
      simp only [World.put] at hb hd
      by_cases hk : k = i
      · by_cases hl : l = i
        · rw [hk, hl]
        · simp only [hk, if_true, Option.some.injEq] at hb; subst hb
          simp only [hl, if_false] at hd
          simp only [Option.some.injEq] at hp; subst hp
          have := (inv.lt l d q hd hq).1
          simp only at he
          omega
      · by_cases hl : l = i
        · simp only [hl, if_true, Option.some.injEq] at hd; subst hd
          simp only [hk, if_false] at hb
          simp only [Option.some.injEq] at hq; subst hq
          have := (inv.lt k b p hb hp).1
          simp only at he
          omega
        · simp only [hk, hl, if_false] at hb hd
          exact inv.uniq k l b d p q hb hd hp hq he
    · exact inv.nodup
    · intro x hx
      exact Nat.lt_succ_of_lt (inv.bound x hx)
    · intro x hx hnx
      by_cases hxe : x = w.next
      · exact ⟨i, { a with cell := some ⟨w.next, ty, v⟩, handler := some ty }, ⟨w.next, ty, v⟩,
          by simp [World.put], rfl, hxe.symm⟩
      · have hx' : x < w.next := by simp only at hx; omega
        obtain ⟨k, b, p, hb, hp, hid⟩ := inv.owned x hx' hnx
        have hk : k ≠ i := by
          intro hk
          rw [hk, ha] at hb
          simp only [Option.some.injEq] at hb
          subst hb
          rw [hcell] at hp
          simp at hp
        exact ⟨k, b, p, by simp only [World.put, hk, if_false]; exact hb, hp, hid⟩
  · funext k
    unfold full setAt World.put
    by_cases hk : k = i
    · simp [hk]
    · simp [hk]

/-- The value of an object changes. -/
theorem revalue_ok {t : Target} {w : World} {j : Var} {b : Any} {o : Obj} (v : Option Nat) (inv : Inv t w)
    (hb : w.vars j = some b) (ho : b.cell = some o) :
    Inv t (w.put j (some { b with cell := some { o with val := v } })) ∧
    full (w.put j (some { b with cell := some { o with val := v } })) =
      setAt (full w) j (some (b.cap, some (o.ty, v))) := by
  constructor
  · constructor
    · intro k d hd
      simp only [World.put] at hd
      by_cases hk : k = j
      · simp only [hk, if_true, Option.some.injEq] at hd; subst hd
        have := inv.agree j b hb
        rw [ho] at this
        exact this
      · simp only [hk, if_false] at hd; exact inv.agree k d hd
    · intro k d p hd hp
      simp only [World.put] at hd
      by_cases hk : k = j
      · simp only [hk, if_true, Option.some.injEq] at hd; subst hd
        simp only [Option.some.injEq] at hp; subst hp; exact inv.fits j b o hb ho
      · simp only [hk, if_false] at hd; exact inv.fits k d p hd hp
    · intro k d p hd hp
      simp only [World.put] at hd
      by_cases hk : k = j
      · simp only [hk, if_true, Option.some.injEq] at hd; subst hd
        simp only [Option.some.injEq] at hp; subst hp; exact inv.lt j b o hb ho
      · simp only [hk, if_false] at hd; exact inv.lt k d p hd hp
    · intro k l d f p q hd hf hp hq he
      simp only [World.put] at hd hf
      by_cases hk : k = j
      · by_cases hl : l = j
        · rw [hk, hl]
        · simp only [hk, if_true, Option.some.injEq] at hd; subst hd
          simp only [hl, if_false] at hf
          simp only [Option.some.injEq] at hp; subst hp
          rw [hk]; exact inv.uniq j l b f o q hb hf ho hq he
      · by_cases hl : l = j
        · simp only [hl, if_true, Option.some.injEq] at hf; subst hf
          simp only [hk, if_false] at hd
          simp only [Option.some.injEq] at hq; subst hq
          rw [hl]; exact inv.uniq k j d b p o hd hb hp ho he
        · simp only [hk, hl, if_false] at hd hf
          exact inv.uniq k l d f p q hd hf hp hq he
    · exact inv.nodup
    · exact inv.bound
    · intro x hx hnx
      obtain ⟨k, d, p, hd, hp, hid⟩ := inv.owned x hx hnx
      by_cases hk : k = j
      · rw [hk, hb] at hd
        simp only [Option.some.injEq] at hd; subst hd
        rw [ho] at hp
        simp only [Option.some.injEq] at hp; subst hp
        exact ⟨j, { b with cell := some { o with val := v } }, { o with val := v }, by simp [World.put], rfl, hid⟩
      · exact ⟨k, d, p, by simp only [World.put, hk, if_false]; exact hd, hp, hid⟩
  · funext k
    unfold full setAt World.put
    by_cases hk : k = j
    · simp [hk]
    · simp [hk]

theorem objAt_ok {w : World} {j : Var} {c : Nat} {ty : Ty} {v : Option Nat}
    (e : full w j = some (c, some (ty, v))) :
    ∃ b o, w.vars j = some b ∧ b.cell = some o ∧ o.ty = ty ∧ o.val = v ∧ b.cap = c ∧ objAt w j ty = some (b, o) := by
  obtain ⟨b, hb, hc, hh⟩ := full_some e
  cases ho : b.cell with
  | none => simp [ho] at hh
  | some o =>
    simp only [ho, Option.map_some, Option.some.injEq, Prod.mk.injEq] at hh
    refine ⟨b, o, hb, ho, hh.1, hh.2, hc, ?_⟩
    unfold objAt
    simp only [hb, ho, hh.1, if_true]

theorem handler_ok {t : Target} {w : World} {j : Var} {c : Nat} {h : Holding} (inv : Inv t w)
    (e : full w j = some (c, h)) : ∃ b, w.vars j = some b ∧ b.handler = h.map Prod.fst ∧ b.cap = c := by
  obtain ⟨b, hb, hc, hh⟩ := full_some e
  refine ⟨b, hb, ?_, hc⟩
  rw [inv.agree j b hb, ← hh]
  cases b.cell <;> rfl

theorem moveFrom_empty {t : Target} {w : World} {i j : Var} {c : Nat} (inv : Inv t w)
    (e : full w j = some (c, none)) : moveFrom t w i j = some w := by
  obtain ⟨b, hb, hh, _⟩ := handler_ok inv e
  unfold moveFrom
  simp only [bind, Option.bind, hb, hh, Option.map_none]

theorem copyFrom_empty {t : Target} {w : World} {i j : Var} {c : Nat} (ok : Bool) (inv : Inv t w)
    (e : full w j = some (c, none)) : copyFrom t w i j ok = some w := by
  obtain ⟨b, hb, hh, _⟩ := handler_ok inv e
  unfold copyFrom
  simp only [bind, Option.bind, hb, hh, Option.map_none]

theorem moveFrom_ok {t : Target} {w : World} {i j : Var} {c d : Nat} {h : Holding} {ty : Ty} {v : Option Nat}
    (inv : Inv t w) (hij : i ≠ j) (ei : full w i = some (c, h)) (ej : full w j = some (d, some (ty, v)))
    (hcd : d ≤ c) :
    ∃ w', moveFrom t w i j = some w' ∧ Inv t w' ∧
      full w' = setAt (setAt (full w) j (some (d, some (ty, none)))) i (some (c, some (ty, v))) := by
  obtain ⟨b, hb, hh, _⟩ := handler_ok inv ej
  have hh' : b.handler = some ty := hh
  have hfit : Fits t ty c := by
    obtain ⟨b', o, hb', ho, hty, -, hcap, -⟩ := objAt_ok ej
    have := inv.fits j b' o hb' ho
    rw [hty, hcap] at this
    exact Fits.mono this hcd
  obtain ⟨w1, h1, inv1, f1⟩ := destruct_ok inv ei
  have ej1 : full w1 j = some (d, some (ty, v)) := by
    rw [f1]; unfold setAt; rw [if_neg (Ne.symm hij)]; exact ej
  obtain ⟨b1, o1, hb1, ho1, hty1, hval1, hcap1, hobj1⟩ := objAt_ok ej1
  obtain ⟨inv2, f2⟩ := revalue_ok none inv1 hb1 ho1
  have ei2 : full (w1.put j (some { b1 with cell := some { o1 with val := none } })) i = some (c, none) := by
    rw [f2]; unfold setAt; rw [if_neg hij, f1]; unfold setAt; rw [if_pos rfl]
  obtain ⟨w3, h3, inv3, f3⟩ := construct_ok (ty := ty) o1.val inv2 ei2 hfit
  refine ⟨w3, ?_, inv3, ?_⟩
  · unfold moveFrom
    simp only [bind, Option.bind, hb, hh', h1, hobj1]
    exact h3
  · rw [f3, f2, f1, hval1, hty1, hcap1]
    funext k
    unfold setAt
    by_cases hk : k = i
    · simp [hk]
    · simp [hk]

theorem copyFrom_ok {t : Target} {w : World} {i j : Var} {c d : Nat} {h : Holding} {ty : Ty} {v : Option Nat}
    (ok : Bool)
    (inv : Inv t w) (hij : i ≠ j) (ei : full w i = some (c, h)) (ej : full w j = some (d, some (ty, v)))
    (hcd : d ≤ c) :
    ∃ w', copyFrom t w i j ok = some w' ∧ Inv t w' ∧
      full w' = setAt (full w) i (some (c, if ok then some (ty, v) else none)) := by
  obtain ⟨b, hb, hh, _⟩ := handler_ok inv ej
  have hh' : b.handler = some ty := hh
  have hfit : Fits t ty c := by
    obtain ⟨b', o, hb', ho, hty, -, hcap, -⟩ := objAt_ok ej
    have := inv.fits j b' o hb' ho
    rw [hty, hcap] at this
    exact Fits.mono this hcd
  obtain ⟨w1, h1, inv1, f1⟩ := destruct_ok inv ei
  have ej1 : full w1 j = some (d, some (ty, v)) := by
    rw [f1]; unfold setAt; rw [if_neg (Ne.symm hij)]; exact ej
  obtain ⟨b1, o1, hb1, ho1, hty1, hval1, hcap1, hobj1⟩ := objAt_ok ej1
  cases ok with
  | false =>
    refine ⟨w1, ?_, inv1, ?_⟩
    · unfold copyFrom
      simp only [bind, Option.bind, hb, hh', h1, hobj1]
      rfl
    · rw [f1]; rfl
  | true =>
    have ei1 : full w1 i = some (c, none) := by rw [f1]; unfold setAt; rw [if_pos rfl]
    obtain ⟨w3, h3, inv3, f3⟩ := construct_ok (ty := ty) o1.val inv1 ei1 hfit
    refine ⟨w3, ?_, inv3, ?_⟩
    · unfold copyFrom
      simp only [bind, Option.bind, hb, hh', h1, hobj1, if_true]
      exact h3
    · rw [f3, f1, hval1]
      funext k
      unfold setAt
      by_cases hk : k = i
      · simp [hk]
      · simp [hk]

theorem declare_ok {t : Target} {w : World} {i : Var} (cap : Nat) (inv : Inv t w) (e : w.vars i = none) :
    Inv t (declare w i cap) ∧ full (declare w i cap) = setAt (full w) i (some (cap, none)) := by
  constructor
  · constructor
    · intro k b hb
      simp only [declare, World.put] at hb
      by_cases hk : k = i
      · simp only [hk, if_true, Option.some.injEq] at hb; subst hb; rfl
      · simp only [hk, if_false] at hb; exact inv.agree k b hb
    · intro k b p hb hp
      simp only [declare, World.put] at hb
      by_cases hk : k = i
      · simp only [hk, if_true, Option.some.injEq] at hb; subst hb; simp at hp
      · simp only [hk, if_false] at hb; exact inv.fits k b p hb hp
    · intro k b p hb hp
      simp only [declare, World.put] at hb
      by_cases hk : k = i
      · simp only [hk, if_true, Option.some.injEq] at hb; subst hb; simp at hp
      · simp only [hk, if_false] at hb; exact inv.lt k b p hb hp
    · intro k l b d p q hb hd hp hq he
      simp only [declare, World.put] at hb hd
      by_cases hk : k = i
      · simp only [hk, if_true, Option.some.injEq] at hb; subst hb; simp at hp
      · by_cases hl : l = i
        · simp only [hl, if_true, Option.some.injEq] at hd; subst hd; simp at hq
        · simp only [hk, hl, if_false] at hb hd
          exact inv.uniq k l b d p q hb hd hp hq he
    · exact inv.nodup
    · exact inv.bound
    · intro x hx hnx
      obtain ⟨k, b, p, hb, hp, hid⟩ := inv.owned x hx hnx
      have hk : k ≠ i := by intro hk; rw [hk, e] at hb; simp at hb
      exact ⟨k, b, p, by simp only [declare, World.put, hk, if_false]; exact hb, hp, hid⟩
  · funext k
    unfold full setAt declare World.put
    by_cases hk : k = i
    · simp [hk]
    · simp [hk]

theorem undeclare_ok {t : Target} {w : World} {i : Var} {c : Nat} (inv : Inv t w) (e : full w i = some (c, none)) :
    Inv t (undeclare w i) ∧ full (undeclare w i) = setAt (full w) i none := by
  obtain ⟨a, ha, -, hh⟩ := full_some e
  have hcell : a.cell = none := by simpa using hh
  constructor
  · constructor
    · intro k b hb
      simp only [undeclare, World.put] at hb
      by_cases hk : k = i
      · simp [hk] at hb
      · simp only [hk, if_false] at hb; exact inv.agree k b hb
    · intro k b p hb hp
      simp only [undeclare, World.put] at hb
      by_cases hk : k = i
      · simp [hk] at hb
      · simp only [hk, if_false] at hb; exact inv.fits k b p hb hp
    · intro k b p hb hp
      simp only [undeclare, World.put] at hb
      by_cases hk : k = i
      · simp [hk] at hb
      · simp only [hk, if_false] at hb; exact inv.lt k b p hb hp
    · intro k l b d p q hb hd hp hq he
      simp only [undeclare, World.put] at hb hd
      by_cases hk : k = i
      · simp [hk] at hb
      · by_cases hl : l = i
        · simp [hl] at hd
        · simp only [hk, hl, if_false] at hb hd
          exact inv.uniq k l b d p q hb hd hp hq he
    · exact inv.nodup
    · exact inv.bound
    · intro x hx hnx
      obtain ⟨k, b, p, hb, hp, hid⟩ := inv.owned x hx hnx
      have hk : k ≠ i := by
        intro hk
        rw [hk, ha] at hb
        simp only [Option.some.injEq] at hb; subst hb
        rw [hcell] at hp; simp at hp
      exact ⟨k, b, p, by simp only [undeclare, World.put, hk, if_false]; exact hb, hp, hid⟩
  · funext k
    unfold full setAt undeclare World.put
    by_cases hk : k = i
    · simp [hk]
    · simp [hk]

theorem dtor_ok {t : Target} {w : World} {i : Var} {c : Nat} {h : Holding} (inv : Inv t w)
    (e : full w i = some (c, h)) :
    ∃ w', dtor w i = some w' ∧ Inv t w' ∧ full w' = setAt (full w) i none := by
  obtain ⟨w1, h1, inv1, f1⟩ := destruct_ok inv e
  have e1 : full w1 i = some (c, none) := by rw [f1]; unfold setAt; rw [if_pos rfl]
  obtain ⟨inv2, f2⟩ := undeclare_ok inv1 e1
  refine ⟨undeclare w1 i, ?_, inv2, ?_⟩
  · unfold dtor; simp only [bind, Option.bind, h1]
  · rw [f2, f1]
    funext k
    unfold setAt
    by_cases hk : k = i <;> simp [hk]

theorem swap_both {t : Target} {w : World} {i j : Var} {c : Nat} {p q : Ty × Option Nat} (inv : Inv t w)
    (hl : w.vars none = none) (hi : i ≠ none) (hj : j ≠ none) (hij : i ≠ j)
    (ei : full w i = some (c, some p)) (ej : full w j = some (c, some q)) :
    ∃ w', swap t w i j = some w' ∧ Inv t w' ∧
      full w' = setAt (setAt (full w) j (some (c, some p))) i (some (c, some q)) := by
  obtain ⟨a, ha, hha, hca⟩ := handler_ok inv ei
  obtain ⟨b, hb, hhb, hcb⟩ := handler_ok inv ej
  obtain ⟨inv1, f1⟩ := declare_ok a.cap inv hl
  have g1 : full (declare w none a.cap) none = some (c, none) := by rw [f1, hca]; unfold setAt; rw [if_pos rfl]
  have g1j : full (declare w none a.cap) j = some (c, some (q.1, q.2)) := by
    rw [f1]; unfold setAt; rw [if_neg hj]; exact ej
  obtain ⟨w2, h2, inv2, f2⟩ := moveFrom_ok inv1 (Ne.symm hj) g1 g1j (le_refl c)
  have g2i : full w2 i = some (c, some (p.1, p.2)) := by
    rw [f2, f1]; unfold setAt; rw [if_neg hi, if_neg hij, if_neg hi]; exact ei
  have g2j : full w2 j = some (c, some (q.1, none)) := by
    rw [f2]; unfold setAt; rw [if_neg hj, if_pos rfl]
  obtain ⟨w3, h3, inv3, f3⟩ := moveFrom_ok inv2 (Ne.symm hij) g2j g2i (le_refl c)
  have g3i : full w3 i = some (c, some (p.1, none)) := by
    rw [f3]; unfold setAt; rw [if_neg hij, if_pos rfl]
  have g3n : full w3 none = some (c, some (q.1, q.2)) := by
    rw [f3]; unfold setAt; rw [if_neg (Ne.symm hj), if_neg (Ne.symm hi), f2]; unfold setAt; rw [if_pos rfl]
  obtain ⟨w4, h4, inv4, f4⟩ := moveFrom_ok inv3 hi g3i g3n (le_refl c)
  have g4n : full w4 none = some (c, some (q.1, none)) := by
    rw [f4]; unfold setAt; rw [if_neg (Ne.symm hi), if_pos rfl]
  obtain ⟨w5, h5, inv5, f5⟩ := dtor_ok inv4 g4n
  refine ⟨w5, ?_, inv5, ?_⟩
  · unfold swap
    rw [if_neg hij]
    simp only [bind, Option.bind, ha, hb]
    rw [if_pos ⟨by rw [hha]; rfl, by rw [hhb]; rfl⟩]
    simp only [h2, h3, h4]
    exact h5
  · rw [f5, f4, f3, f2, f1]
    funext k
    unfold setAt
    by_cases hk : k = none
    · subst hk
      simp only [if_true, if_neg (Ne.symm hi), if_neg (Ne.symm hj)]
      unfold full
      rw [hl]; rfl
    · by_cases hki : k = i
      · simp [hki, hi]
      · by_cases hkj : k = j
        · simp [hkj, hj, Ne.symm hij]
        · simp [hk, hki, hkj]

/-- Half swaps: the one which holds a value keeps its object, without its value. -/
theorem swap_left {t : Target} {w : World} {i j : Var} {c : Nat} {p : Ty × Option Nat} (inv : Inv t w)
    (hij : i ≠ j)
    (ei : full w i = some (c, some p)) (ej : full w j = some (c, none)) :
    ∃ w', swap t w i j = some w' ∧ Inv t w' ∧
      full w' = setAt (setAt (full w) i (some (c, some (p.1, none)))) j (some (c, some p)) := by
  obtain ⟨a, ha, hha, hca⟩ := handler_ok inv ei
  obtain ⟨b, hb, hhb, hcb⟩ := handler_ok inv ej
  obtain ⟨w2, h2, inv2, f2⟩ := moveFrom_ok (ty := p.1) (v := p.2) inv (Ne.symm hij) ej ei (le_refl c)
  refine ⟨w2, ?_, inv2, f2⟩
  unfold swap
  rw [if_neg hij]
  simp only [bind, Option.bind, ha, hb]
  rw [if_neg (by rw [hhb]; simp), if_pos (by rw [hha]; rfl)]
  exact h2

theorem swap_right {t : Target} {w : World} {i j : Var} {c : Nat} {q : Ty × Option Nat} (inv : Inv t w)
    (hij : i ≠ j)
    (ei : full w i = some (c, none)) (ej : full w j = some (c, some q)) :
    ∃ w', swap t w i j = some w' ∧ Inv t w' ∧
      full w' = setAt (setAt (full w) j (some (c, some (q.1, none)))) i (some (c, some q)) := by
  obtain ⟨a, ha, hha, hca⟩ := handler_ok inv ei
  obtain ⟨b, hb, hhb, hcb⟩ := handler_ok inv ej
  obtain ⟨w2, h2, inv2, f2⟩ := moveFrom_ok (ty := q.1) (v := q.2) inv hij ei ej (le_refl c)
  refine ⟨w2, ?_, inv2, f2⟩
  unfold swap
  rw [if_neg hij]
  simp only [bind, Option.bind, ha, hb]
  rw [if_neg (by rw [hha]; simp), if_neg (by rw [hha]; simp)]
  exact h2

theorem swap_none {t : Target} {w : World} {i j : Var} {c : Nat} (inv : Inv t w)
    (ei : full w i = some (c, none)) (ej : full w j = some (c, none)) : swap t w i j = some w := by
  obtain ⟨a, ha, hha, hca⟩ := handler_ok inv ei
  obtain ⟨b, hb, hhb, hcb⟩ := handler_ok inv ej
  unfold swap
  by_cases hij : i = j
  · rw [if_pos hij]
  · rw [if_neg hij]
    simp only [bind, Option.bind, ha, hb]
    rw [if_neg (by rw [hha]; simp), if_neg (by rw [hha]; simp)]
    exact moveFrom_empty inv ej

end Modm.InplaceAny
