import Verif.Spec.SpiStm32
import Mathlib.Tactic.Set

set_option autoImplicit false

/-!
Invariants of the transfers of the SPI master of STM32.
-/

namespace Lemmas.SpiStm32

open Model.SpiStm32 Spec.SpiStm32

variable {c : Cfg} {a : Args}

theorem want_length (a : Args) (mem : Nat → Byte) : (want a mem).length = a.length := by
  simp [want]

theorem want_get (a : Args) (mem : Nat → Byte) (i : Nat) (hi : i < a.length) :
    (want a mem)[i]? = some (a.byte mem i) := by
  unfold want Args.byte
  rw [List.getElem?_map, List.getElem?_range hi]
  rfl

theorem take_succ_of {α : Type} {l : List α} {i : Nat} {x : α} (h : l[i]? = some x) :
    l.take (i + 1) = l.take i ++ [x] := by
  rw [List.take_succ, h]
  rfl

/-! ## DMA -/

/-- A transfer under way that began in `s0`; `m` bytes went over the wire. -/
structure DInv (c : Cfg) (a : Args) (s0 : St) (m : Nat) (s : St) : Prop where
  clock : s.hw.clock = true
  txDma : s.hw.txDma = true
  rxDma : s.hw.rxDma = true
  error : s.sw.error = false
  bit1 : s.sw.bit1 = true
  bit0 : s.sw.bit0 = false
  te : s.hw.ct.te = false ∧ s.hw.cr.te = false
  left : s.hw.ct.left ≤ a.length
  rleft : s.hw.cr.left ≤ a.length
  mle : m ≤ a.length - s.hw.ct.left
  sent : s.hw.sent = s0.hw.sent ++ (want a s0.hw.mem).take m
  pipe : s.hw.shift.toList ++ s.hw.tx = ((want a s0.hw.mem).take (a.length - s.hw.ct.left)).drop m
  taddr : s.hw.ct.inc = a.tx.isSome ∧ ∀ p, a.tx = some p → s.hw.ct.addr = p + (a.length - s.hw.ct.left)
  tdummy : a.tx = none → s.hw.ct.addr = c.dummy
  raddr : s.hw.cr.inc = a.rx.isSome ∧ ∀ q, a.rx = some q → s.hw.cr.addr = q + (a.length - s.hw.cr.left)
  rdummy : a.rx = none → s.hw.cr.addr = c.dummy
  rle : (a.length - s.hw.cr.left) + s.hw.rx.length ≤ m
  rcont : s.hw.lost = false → (a.length - s.hw.cr.left) + s.hw.rx.length = m ∧
    (∀ i < s.hw.rx.length, s.hw.rx[i]? = some (answer c.ans s0.hw.sent (want a s0.hw.mem) (a.length - s.hw.cr.left + i))) ∧
    ∀ q, a.rx = some q → ∀ i < a.length - s.hw.cr.left, s.hw.mem (q + i) = answer c.ans s0.hw.sent (want a s0.hw.mem) i
  frame : ∀ x, (∀ q, a.rx = some q → ∀ i < a.length - s.hw.cr.left, x ≠ q + i) → (a.rx = none → x ≠ c.dummy) →
    s.hw.mem x = s0.hw.mem x
  tchan : (s.sw.txComplete = false ∧ s.hw.ct.en = true ∧ (s.hw.ct.tc = true ↔ s.hw.ct.left = 0)) ∨
    (s.sw.txComplete = true ∧ s.hw.ct.en = false ∧ s.hw.ct.tc = false ∧ s.hw.ct.left = 0)
  rchan : (s.sw.rxComplete = false ∧ s.hw.cr.en = true ∧ (s.hw.cr.tc = true ↔ s.hw.cr.left = 0)) ∨
    (s.sw.rxComplete = true ∧ s.hw.cr.en = false ∧ s.hw.cr.tc = false ∧ s.hw.cr.left = 0)

theorem begin_inv {s0 : St} (q : Quiet s0) (u : Usable c a s0.hw.mem) (hl : s0.hw.lost = false) :
    DInv c a s0 0 (begin c a s0) := by
  have hn := u.short
  have hp := u.pos
  have hm : a.length % 65536 = a.length := Nat.mod_eq_of_lt hn
  obtain ⟨e1, e2, e3⟩ := q.ct
  obtain ⟨e4, e5, e6⟩ := q.cr
  have hc := q.clock
  constructor <;> simp [begin, Chan.setup, Chan.start, hc, e1, e4, q.tx, q.rx, q.shift, hm, q.bit0, q.txDma, q.rxDma, hl]
  · intro p hp; simp [hp]
  · intro h; simp [h]
  · intro p hp; simp [hp]
  · intro h; simp [h]
  · omega
  · omega

section
variable {s0 s : St} {m : Nat}

theorem load_inv (i : DInv c a s0 m s) : DInv c a s0 m { s with hw := load s.hw } := by
  unfold load
  split
  · rename_i b r h1 h2
    exact { i with pipe := by have := i.pipe; rw [h1, h2] at this; simpa using this }
  · exact i

theorem finish_inv (i : DInv c a s0 m s) : ∃ m', m ≤ m' ∧ DInv c a s0 m' { s with hw := finish c s.hw } := by
  unfold finish
  split
  · exact ⟨m, Nat.le_refl _, i⟩
  · rename_i b hb
    have hp := i.pipe
    rw [hb] at hp
    simp only [Option.toList_some, List.singleton_append] at hp
    set k := a.length - s.hw.ct.left with hk
    have hlen : ((want a s0.hw.mem).take k).length = k := by
      rw [List.length_take, want_length]; omega
    have hmk : m < k := by
      by_contra hcon
      rw [List.drop_eq_nil_of_le (by omega)] at hp
      cases hp
    have hget : (want a s0.hw.mem)[m]? = some b := by
      have := congrArg (fun l => l[0]?) hp
      simp only [List.getElem?_cons_zero, List.getElem?_drop, Nat.add_zero] at this
      rw [List.getElem?_take_of_lt hmk] at this
      exact this.symm
    have hsent : s.hw.sent ++ [b] = s0.hw.sent ++ (want a s0.hw.mem).take (m + 1) := by
      rw [take_succ_of hget, i.sent, List.append_assoc]
    have hpipe : s.hw.tx = ((want a s0.hw.mem).take k).drop (m + 1) := by
      have := congrArg List.tail hp
      simpa using this
    have hr := i.rle
    split
    · rename_i hcap
      refine ⟨m + 1, by omega, { i with mle := hmk, sent := hsent, pipe := by simpa using hpipe, rle := ?_, rcont := ?_ }⟩
      · simp; omega
      · intro hl
        obtain ⟨c1, c2, c3⟩ := i.rcont hl
        refine ⟨by simp; omega, ?_, c3⟩
        intro j hj
        simp only [List.length_append, List.length_cons, List.length_nil] at hj
        by_cases hj2 : j < s.hw.rx.length
        · simp only []
          rw [List.getElem?_append_left hj2]
          exact c2 j hj2
        · have : j = s.hw.rx.length := by omega
          subst this
          simp only [List.getElem?_concat_length]
          rw [i.sent]
          unfold answer
          rw [c1]
    · refine ⟨m + 1, by omega, { i with mle := hmk, sent := hsent, pipe := by simpa using hpipe, rle := ?_, rcont := ?_ }⟩
      · simp; omega
      · intro hl; simp at hl

/-- The byte the channel fetches is the next one. -/
theorem fetch_eq (u : Usable c a s0.hw.mem) (i : DInv c a s0 m s) (h : 0 < s.hw.ct.left) :
    s.hw.mem s.hw.ct.addr = a.byte s0.hw.mem (a.length - s.hw.ct.left) := by
  have hm := i.mle
  have hl := i.left
  have hr := i.rle
  cases ht : a.tx with
  | none =>
    obtain ⟨hz, hn⟩ := u.zero ht
    rw [i.tdummy ht]
    unfold Args.byte
    rw [ht]
    rw [i.frame c.dummy (fun q hq j hj => (u.rx q hq j (by omega)).symm) (fun h => absurd h hn)]
    exact hz
  | some p =>
    rw [i.taddr.2 p ht]
    unfold Args.byte
    rw [ht]
    exact i.frame _ (fun q hq j hj => (u.apart p q ht hq _ (by omega) j (by omega)).symm) (fun _ => u.tx p ht _ (by omega))

theorem dmaTx_inv (u : Usable c a s0.hw.mem) (i : DInv c a s0 m s) : DInv c a s0 m { s with hw := dmaTx c s.hw } := by
  unfold dmaTx
  split
  · rename_i h
    simp only [Bool.and_eq_true, decide_eq_true_eq] at h
    obtain ⟨⟨⟨⟨_, _⟩, hen⟩, hl⟩, hc⟩ := h
    have hf := fetch_eq u i hl
    have hle := i.left
    have hm := i.mle
    have hk : a.length - (s.hw.ct.left - 1) = (a.length - s.hw.ct.left) + 1 := by omega
    have hget : (want a s0.hw.mem)[a.length - s.hw.ct.left]? = some (s.hw.mem s.hw.ct.addr) := by
      rw [hf]; exact want_get _ _ _ (by omega)
    refine { i with left := ?left, mle := ?mle, pipe := ?pipe, taddr := ?taddr, tdummy := ?tdummy, te := ?te, tchan := ?tchan }
    case left =>
      simp [Chan.advance]; omega
    case mle =>
      simp [Chan.advance]; omega
    case pipe =>
      simp only [Chan.advance]
      rw [hk, take_succ_of hget, List.drop_append_of_le_length (by rw [List.length_take, want_length]; omega), ← i.pipe, List.append_assoc]
    case taddr =>
      refine ⟨i.taddr.1, fun p hp => ?_⟩
      have h1 := i.taddr.1
      rw [hp] at h1
      simp only [Chan.advance, h1, Option.isSome_some, if_true]
      rw [i.taddr.2 p hp]; omega
    case tdummy =>
      intro hp
      have h1 := i.taddr.1
      rw [hp] at h1
      simp only [Chan.advance, h1, Option.isSome_none]
      exact i.tdummy hp
    case te =>
      exact i.te
    case tchan =>
      rcases i.tchan with ⟨t1, t2, t3⟩ | ⟨t1, t2, t3, t4⟩
      · left
        refine ⟨t1, t2, ?_⟩
        simp only [Chan.advance, Bool.or_eq_true, beq_iff_eq, t3]
        omega
      · rw [t2] at hen; cases hen
  · exact i

theorem dmaRx_inv (i : DInv c a s0 m s) : DInv c a s0 m { s with hw := dmaRx s.hw } := by
  unfold dmaRx
  split
  · exact i
  · rename_i b r hb
    split
    · rename_i h
      simp only [Bool.and_eq_true, decide_eq_true_eq] at h
      obtain ⟨⟨⟨_, _⟩, hen⟩, hl⟩ := h
      have hle := i.rleft
      have hrl := i.rle
      rw [hb] at hrl
      simp only [List.length_cons] at hrl
      have hk : a.length - (s.hw.cr.left - 1) = (a.length - s.hw.cr.left) + 1 := by omega
      refine { i with rleft := ?rleft, rle := ?rle, raddr := ?raddr, rdummy := ?rdummy, te := ?te, rchan := ?rchan, rcont := ?rcont, frame := ?frame }
      case rleft =>
        simp [Chan.advance]; omega
      case rle =>
        simp only [Chan.advance]; omega
      case raddr =>
        refine ⟨i.raddr.1, fun p hp => ?_⟩
        have h1 := i.raddr.1
        rw [hp] at h1
        simp only [Chan.advance, h1, Option.isSome_some, if_true]
        rw [i.raddr.2 p hp]; omega
      case rdummy =>
        intro hp
        have h1 := i.raddr.1
        rw [hp] at h1
        simp only [Chan.advance, h1, Option.isSome_none]
        exact i.rdummy hp
      case te =>
        exact i.te
      case rchan =>
        rcases i.rchan with ⟨t1, t2, t3⟩ | ⟨t1, t2, t3, t4⟩
        · left
          refine ⟨t1, t2, ?_⟩
          simp only [Chan.advance, Bool.or_eq_true, beq_iff_eq, t3]
          omega
        · rw [t2] at hen; cases hen
      case rcont =>
        intro hlost
        obtain ⟨c1, c2, c3⟩ := i.rcont hlost
        rw [hb] at c1 c2
        simp only [List.length_cons] at c1 c2
        simp only [Chan.advance]
        rw [hk]
        refine ⟨by omega, fun j hj => ?_, fun q hq j hj => ?_⟩
        · have := c2 (j + 1) (by omega)
          rw [List.getElem?_cons_succ] at this
          rw [this]
          congr 2; omega
        · rw [i.raddr.2 q hq]
          by_cases hj2 : j = a.length - s.hw.cr.left
          · rw [hj2, Function.update_self]
            have := c2 0 (by omega)
            simpa using this
          · rw [Function.update_of_ne (by omega)]
            exact c3 q hq j (by omega)
      case frame =>
        intro x h1 h2
        simp only [Chan.advance] at h1 ⊢
        rw [hk] at h1
        have hx : x ≠ s.hw.cr.addr := by
          cases hq : a.rx with
          | none => rw [i.rdummy hq]; exact h2 hq
          | some q => rw [i.raddr.2 q hq]; exact h1 q hq _ (by omega)
        rw [Function.update_of_ne hx]
        exact i.frame x (fun q hq j hj => h1 q hq j (by omega)) h2
    · exact i

theorem irqTx_inv (i : DInv c a s0 m s) : DInv c a s0 m (irqTx s) := by
  unfold irqTx
  rw [i.clock, i.te.1]
  rcases i.tchan with ⟨t1, t2, t3⟩ | ⟨t1, t2, t3, t4⟩
  · by_cases ht : s.hw.ct.tc = true
    · simp only [ht, Bool.or_false, Bool.and_self, if_true, Bool.false_eq_true, if_false, handleTransmit, i.clock, Chan.stop, Chan.clear]
      exact { i with clock := rfl, te := ⟨rfl, i.te.2⟩, tchan := Or.inr ⟨rfl, rfl, rfl, t3.1 ht⟩ }
    · rw [Bool.not_eq_true] at ht
      simp only [ht, Bool.or_false, Bool.and_false]
      exact i
  · simp only [t3, Bool.or_false, Bool.and_false]
    exact i

theorem irqRx_inv (i : DInv c a s0 m s) : DInv c a s0 m (irqRx s) := by
  unfold irqRx
  rw [i.clock, i.te.2]
  rcases i.rchan with ⟨t1, t2, t3⟩ | ⟨t1, t2, t3, t4⟩
  · by_cases ht : s.hw.cr.tc = true
    · simp only [ht, Bool.or_false, Bool.and_self, if_true, Bool.false_eq_true, if_false, handleReceive, i.clock, Chan.stop, Chan.clear]
      exact { i with clock := rfl, te := ⟨i.te.1, rfl⟩, rchan := Or.inr ⟨rfl, rfl, rfl, t3.1 ht⟩ }
    · rw [Bool.not_eq_true] at ht
      simp only [ht, Bool.or_false, Bool.and_false]
      exact i
  · simp only [t3, Bool.or_false, Bool.and_false]
    exact i

theorem step_inv (u : Usable c a s0.hw.mem) (i : DInv c a s0 m s) (e : Ev) (he : NoFault e) :
    ∃ m', m ≤ m' ∧ DInv c a s0 m' (step c e s) := by
  cases e with
  | load => exact ⟨m, Nat.le_refl _, load_inv i⟩
  | finish => exact finish_inv i
  | dmaTx => exact ⟨m, Nat.le_refl _, dmaTx_inv u i⟩
  | dmaRx => exact ⟨m, Nat.le_refl _, dmaRx_inv i⟩
  | irqTx => exact ⟨m, Nat.le_refl _, irqTx_inv i⟩
  | irqRx => exact ⟨m, Nat.le_refl _, irqRx_inv i⟩
  | faultTx => exact he.elim
  | faultRx => exact he.elim

theorem steps_inv (u : Usable c a s0.hw.mem) (es : List Ev) :
    ∀ (m : Nat) (s : St), DInv c a s0 m s → (∀ e ∈ es, NoFault e) → ∃ m', m ≤ m' ∧ DInv c a s0 m' (steps c es s) := by
  induction es with
  | nil => intro m s i _; exact ⟨m, Nat.le_refl _, i⟩
  | cons e es ih =>
    intro m s i h
    obtain ⟨m1, h1, i1⟩ := step_inv u i e (h e (by simp))
    obtain ⟨m2, h2, i2⟩ := ih m1 _ i1 (fun e' he' => h e' (by simp [he']))
    exact ⟨m2, Nat.le_trans h1 h2, i2⟩

theorem step_left (e : Ev) (s : St) : (step c e s).hw.ct.left ≤ s.hw.ct.left := by
  cases e with
  | load => simp only [step, load]; split <;> exact Nat.le_refl _
  | finish =>
    simp only [step, finish]
    split
    · exact Nat.le_refl _
    · split <;> exact Nat.le_refl _
  | dmaTx =>
    simp only [step, dmaTx]
    split
    · simp [Chan.advance]
    · exact Nat.le_refl _
  | dmaRx =>
    simp only [step, dmaRx]
    split
    · exact Nat.le_refl _
    · split <;> exact Nat.le_refl _
  | irqTx =>
    simp only [step, irqTx]
    split
    · simp only [Chan.clear]
      cases s.hw.ct.te <;> cases s.hw.ct.tc <;> simp [handleError, handleTransmit, Chan.stop] <;> split <;> simp
    · exact Nat.le_refl _
  | irqRx =>
    simp only [step, irqRx]
    split
    · cases s.hw.cr.te <;> cases s.hw.cr.tc <;> simp [handleError, handleReceive, Chan.stop]
    · exact Nat.le_refl _
  | faultTx => simp only [step]; split <;> exact Nat.le_refl _
  | faultRx => simp only [step]; split <;> exact Nat.le_refl _

theorem steps_left (es : List Ev) : ∀ s : St, (steps c es s).hw.ct.left ≤ s.hw.ct.left := by
  induction es with
  | nil => intro s; exact Nat.le_refl _
  | cons e es ih => intro s; exact Nat.le_trans (ih _) (step_left e s)

/-- What holds when the transfer by DMA has returned. -/
structure Done (c : Cfg) (a : Args) (s0 s1 : St) : Prop where
  ex : ∃ s2, DInv c a s0 a.length s2 ∧ s1 = finishDma s2 ∧ (c.fifo = true → s2.hw.rx = []) ∧
    s2.hw.tx = [] ∧ s2.hw.shift = none ∧ s2.hw.ct.left = 0

theorem check_inv (u : Usable c a s0.hw.mem) (i : DInv c a s0 m s) (m1 m2 : List Ev)
    (h1 : ∀ e ∈ m1, NoFault e) (h2 : ∀ e ∈ m2, NoFault e) :
    ((check c m1 m2 s).1 = false → ∃ m', DInv c a s0 m' (check c m1 m2 s).2) ∧
    ((check c m1 m2 s).1 = true → Done c a s0 (check c m1 m2 s).2) := by
  unfold check
  rw [i.error]
  simp only [Bool.false_eq_true, if_false]
  by_cases hc : (!s.sw.txComplete && !s.sw.rxComplete) = true
  · rw [if_pos hc]
    exact ⟨fun _ => ⟨m, i⟩, fun h => (by cases h)⟩
  · rw [if_neg hc]
    have hleft : s.hw.ct.left = 0 := by
      rcases i.tchan with ⟨t1, _⟩ | ⟨_, _, _, t4⟩
      · rcases i.rchan with ⟨r1, _⟩ | ⟨_, _, _, r4⟩
        · rw [t1, r1] at hc; exact absurd rfl hc
        · have := i.rle
          have := i.mle
          have := i.left
          have := u.pos
          omega
      · exact t4
    obtain ⟨k1, _, i1⟩ := steps_inv u m1 m s i h1
    have hl1 : (steps c m1 s).hw.ct.left = 0 := by
      have := steps_left (c := c) m1 s
      omega
    by_cases hb : busy (steps c m1 s).hw = true
    · rw [if_pos hb]
      exact ⟨fun _ => ⟨k1, i1⟩, fun h => (by cases h)⟩
    · rw [if_neg hb]
      obtain ⟨k2, hk2, i2⟩ := steps_inv u m2 k1 _ i1 h2
      have hl2 : (steps c m2 (steps c m1 s)).hw.ct.left = 0 := by
        have := steps_left (c := c) m2 (steps c m1 s)
        omega
      have hk1 : k1 = a.length := by
        have hp := i1.pipe
        have hm := i1.mle
        unfold busy at hb
        simp only [Bool.or_eq_true, Option.isSome_iff_ne_none, ne_eq, Bool.not_eq_true', List.isEmpty_eq_false_iff, not_or, not_not] at hb
        rw [hb.1, hb.2, hl1] at hp
        have := congrArg List.length hp
        simp only [Option.toList_none, List.append_nil, List.length_nil, List.length_drop, List.length_take, want_length] at this
        omega
      have hk : k2 = a.length := by
        have := i2.mle
        omega
      subst hk
      have hpipe : (steps c m2 (steps c m1 s)).hw.shift.toList ++ (steps c m2 (steps c m1 s)).hw.tx = [] := by
        rw [i2.pipe]
        apply List.drop_eq_nil_of_le
        rw [List.length_take, want_length]; omega
      rw [List.append_eq_nil_iff, Option.toList_eq_nil_iff] at hpipe
      by_cases hv : (c.fifo && levels (steps c m2 (steps c m1 s)).hw) = true
      · rw [if_pos hv]
        exact ⟨fun _ => ⟨_, i2⟩, fun h => (by cases h)⟩
      · rw [if_neg hv]
        refine ⟨fun h => (by cases h), fun _ => ⟨_, i2, rfl, fun hf => ?_, hpipe.2, hpipe.1, hl2⟩⟩
        rw [hf] at hv
        unfold levels at hv
        simpa [hpipe.2] using hv

end

theorem quiet_step {s : St} (q : Quiet s) (e : Ev) : step c e s = s := by
  obtain ⟨e1, e2, e3⟩ := q.ct
  obtain ⟨e4, e5, e6⟩ := q.cr
  cases e <;> simp [step, load, finish, dmaTx, dmaRx, irqTx, irqRx, q.tx, q.shift, q.rx, q.txDma, e1, e2, e3, e4, e5, e6]

theorem quiet_steps {s : St} (q : Quiet s) (es : List Ev) : steps c es s = s := by
  induction es with
  | nil => rfl
  | cons e es ih => rw [steps, quiet_step q e, ih]

theorem call_inv {s0 s : St} (u : Usable c a s0.hw.mem) {m : Nat} (i : DInv c a s0 m s) (m0 m1 m2 : List Ev)
    (h : ActOk (.call m0 m1 m2)) :
    ((transferDma c a m0 m1 m2 s).1 = false → ∃ m', DInv c a s0 m' (transferDma c a m0 m1 m2 s).2) ∧
    ((transferDma c a m0 m1 m2 s).1 = true → Done c a s0 (transferDma c a m0 m1 m2 s).2) := by
  obtain ⟨h0, h1, h2⟩ := h
  unfold transferDma
  rw [i.bit1]
  obtain ⟨k, _, ik⟩ := steps_inv u m0 m s i h0
  exact check_inv u ik m1 m2 h1 h2

theorem first_inv {s0 : St} (u : Usable c a s0.hw.mem) (q : Quiet s0) (hl : s0.hw.lost = false) (m0 m1 m2 : List Ev)
    (h : ActOk (.call m0 m1 m2)) :
    ((transferDma c a m0 m1 m2 s0).1 = false → ∃ m', DInv c a s0 m' (transferDma c a m0 m1 m2 s0).2) ∧
    ((transferDma c a m0 m1 m2 s0).1 = true → Done c a s0 (transferDma c a m0 m1 m2 s0).2) := by
  obtain ⟨h0, h1, h2⟩ := h
  unfold transferDma
  rw [q.bit1]
  obtain ⟨k, _, ik⟩ := steps_inv u m0 0 _ (begin_inv q u hl) h0
  exact check_inv u ik m1 m2 h1 h2

theorem execDma_inv {s0 : St} (u : Usable c a s0.hw.mem) (q : Quiet s0) (hl : s0.hw.lost = false) (as : List Act) :
    ∀ s, (s = s0 ∨ ∃ m, DInv c a s0 m s) → (∀ x ∈ as, ActOk x) →
      ((execDma c a as s).1 = false → ((execDma c a as s).2 = s0 ∨ ∃ m, DInv c a s0 m (execDma c a as s).2)) ∧
      ((execDma c a as s).1 = true → Done c a s0 (execDma c a as s).2) := by
  induction as with
  | nil => intro s h _; exact ⟨fun _ => h, fun h => (by cases h)⟩
  | cons x as ih =>
    intro s h hok
    have hok' : ∀ y ∈ as, ActOk y := fun y hy => hok y (by simp [hy])
    cases x with
    | hw e =>
      rw [execDma]
      apply ih _ _ hok'
      rcases h with h | ⟨m, i⟩
      · left; rw [h]; exact quiet_step q e
      · right
        obtain ⟨m', _, i'⟩ := step_inv u i e (hok (.hw e) (by simp))
        exact ⟨m', i'⟩
    | call m0 m1 m2 =>
      rw [execDma]
      have hc : ((transferDma c a m0 m1 m2 s).1 = false → ∃ m', DInv c a s0 m' (transferDma c a m0 m1 m2 s).2) ∧
          ((transferDma c a m0 m1 m2 s).1 = true → Done c a s0 (transferDma c a m0 m1 m2 s).2) := by
        rcases h with h | ⟨m, i⟩
        · subst h; exact first_inv u q hl m0 m1 m2 (hok _ (by simp))
        · exact call_inv u i m0 m1 m2 (hok _ (by simp))
      generalize transferDma c a m0 m1 m2 s = r at hc ⊢
      obtain ⟨b, s1⟩ := r
      cases b with
      | true => exact ⟨fun h => (by cases h), fun _ => hc.2 rfl⟩
      | false => exact ih s1 (Or.inr (hc.1 rfl)) hok'

/-! ### Progress -/

def b2n (b : Bool) : Nat := if b then 1 else 0

theorem b2n_le (b : Bool) : b2n b ≤ 1 := by cases b <;> decide

/-- A bound on the number of events that can still happen. -/
def meas (s : St) : Nat :=
  8 * s.hw.ct.left + 6 * s.hw.tx.length + 4 * s.hw.shift.toList.length + 2 * s.hw.rx.length + b2n s.hw.ct.tc + b2n s.hw.cr.tc

theorem step_meas {s0 s : St} {m : Nat} (i : DInv c a s0 m s) (e : Ev) (he : NoFault e) :
    step c e s = s ∨ meas (step c e s) < meas s := by
  cases e with
  | load =>
    simp only [step, load]
    split
    · rename_i b r h1 h2
      right; simp [meas, h1, h2]; omega
    · left; rfl
  | finish =>
    simp only [step, finish]
    split
    · left; rfl
    · rename_i b hb
      right
      split <;> (simp [meas, hb]; try omega)
  | dmaTx =>
    simp only [step, dmaTx]
    split
    · rename_i h
      simp only [Bool.and_eq_true, decide_eq_true_eq] at h
      right
      have h1 : b2n (s.hw.ct.advance).tc ≤ b2n s.hw.ct.tc + 1 := by
        have := b2n_le (s.hw.ct.advance).tc
        omega
      simp only [meas, List.length_append, List.length_cons, List.length_nil]
      simp only [Chan.advance] at h1 ⊢
      omega
    · left; rfl
  | dmaRx =>
    simp only [step, dmaRx]
    split
    · left; rfl
    · rename_i b r hb
      split
      · right
        have h1 : b2n (s.hw.cr.advance).tc ≤ b2n s.hw.cr.tc + 1 := by
          have := b2n_le (s.hw.cr.advance).tc
          omega
        simp only [meas, hb, List.length_cons]
        omega
      · left; rfl
  | irqTx =>
    simp only [step, irqTx, i.clock, i.te.1]
    cases ht : s.hw.ct.tc with
    | true => right; simp [handleTransmit, Chan.stop, Chan.clear, i.clock, meas, ht, b2n]
    | false => left; simp
  | irqRx =>
    simp only [step, irqRx, i.clock, i.te.2]
    cases ht : s.hw.cr.tc with
    | true => right; simp [handleReceive, Chan.stop, Chan.clear, i.clock, meas, ht, b2n]
    | false => left; simp
  | faultTx => exact he.elim
  | faultRx => exact he.elim

/-- When the hardware has nothing left to do, the next call returns. -/
theorem stuck_returns {s0 s : St} {m : Nat} (i : DInv c a s0 m s) (hcap : 0 < c.cap)
    (h : ∀ e, NoFault e → step c e s = s) : (transferDma c a [] [] [] s).1 = true := by
  have hshift : s.hw.shift = none := by
    cases hs : s.hw.shift with
    | none => rfl
    | some b =>
      have := congrArg (fun t : St => t.hw.shift) (h .finish trivial)
      simp only [step, finish, hs] at this
      split at this <;> cases this
  have htx : s.hw.tx = [] := by
    cases hs : s.hw.tx with
    | nil => rfl
    | cons b r =>
      have := congrArg (fun t : St => t.hw.shift) (h .load trivial)
      simp only [step, load, hs, hshift] at this
      cases this
  have hl : s.hw.ct.left = 0 := by
    by_contra hne
    rcases i.tchan with ⟨t1, t2, t3⟩ | ⟨t1, t2, t3, t4⟩
    · have := congrArg (fun t : St => t.hw.ct.left) (h .dmaTx trivial)
      simp only [step, dmaTx, i.clock, i.txDma, t2, htx] at this
      rw [if_pos (by simp; omega)] at this
      simp only [Chan.advance] at this
      omega
    · exact hne t4
  have htc : s.sw.txComplete = true := by
    rcases i.tchan with ⟨t1, t2, t3⟩ | ⟨t1, t2, t3, t4⟩
    · have := congrArg (fun t : St => t.sw.txComplete) (h .irqTx trivial)
      simp [step, irqTx, i.clock, i.te.1, t3.2 hl, handleTransmit] at this
      rw [t1] at this; cases this
    · exact t1
  have hrx : s.hw.rx = [] := by
    cases hs : s.hw.rx with
    | nil => rfl
    | cons b r =>
      have hrle := i.rle
      have hm := i.mle
      rw [hs] at hrle
      simp only [List.length_cons] at hrle
      rcases i.rchan with ⟨t1, t2, t3⟩ | ⟨t1, t2, t3, t4⟩
      · have := congrArg (fun t : St => t.hw.rx.length) (h .dmaRx trivial)
        simp only [step, dmaRx, hs, i.clock, i.rxDma, t2] at this
        rw [if_pos (by simp; omega)] at this
        simp only [List.length_cons] at this
        omega
      · omega
  simp [transferDma, i.bit1, steps, check, i.error, htc, busy, hshift, htx, levels, hrx]

/-! ## Polling -/

/-- A transfer by polling under way that began in `s0`. -/
structure PInv (c : Cfg) (a : Args) (s0 s : St) : Prop where
  index : s.sw.index < a.length
  bit1 : s.sw.bit1 = true
  txDma : s.hw.txDma = false
  rxDma : s.hw.rxDma = false
  clock : s.hw.clock = true
  ct : s.hw.ct.en = false ∧ s.hw.ct.tc = false ∧ s.hw.ct.te = false
  cr : s.hw.cr.en = false ∧ s.hw.cr.tc = false ∧ s.hw.cr.te = false
  lost : s.hw.lost = s0.hw.lost
  frame : ∀ x, (∀ q, a.rx = some q → ∀ i < s.sw.index, x ≠ q + i) → s.hw.mem x = s0.hw.mem x
  stored : ∀ q, a.rx = some q → ∀ i < s.sw.index, s.hw.mem (q + i) = answer c.ans s0.hw.sent (want a s0.hw.mem) i
  phase : (s.sw.bit0 = false ∧ s.hw.tx = [] ∧ s.hw.shift = none ∧ s.hw.rx = [] ∧
      s.hw.sent = s0.hw.sent ++ (want a s0.hw.mem).take s.sw.index) ∨
    (s.sw.bit0 = true ∧ s.hw.tx = [a.byte s0.hw.mem s.sw.index] ∧ s.hw.shift = none ∧ s.hw.rx = [] ∧
      s.hw.sent = s0.hw.sent ++ (want a s0.hw.mem).take s.sw.index) ∨
    (s.sw.bit0 = true ∧ s.hw.tx = [] ∧ s.hw.shift = some (a.byte s0.hw.mem s.sw.index) ∧ s.hw.rx = [] ∧
      s.hw.sent = s0.hw.sent ++ (want a s0.hw.mem).take s.sw.index) ∨
    (s.sw.bit0 = true ∧ s.hw.tx = [] ∧ s.hw.shift = none ∧
      s.hw.rx = [answer c.ans s0.hw.sent (want a s0.hw.mem) s.sw.index] ∧
      s.hw.sent = s0.hw.sent ++ (want a s0.hw.mem).take (s.sw.index + 1))

theorem pstep_inv {s0 s : St} (hcap : 0 < c.cap) (i : PInv c a s0 s) (e : Ev) : PInv c a s0 (step c e s) := by
  obtain ⟨e1, e2, e3⟩ := i.ct
  obtain ⟨e4, e5, e6⟩ := i.cr
  have hdt : dmaTx c s.hw = s.hw := by simp [dmaTx, i.txDma]
  have hdr : dmaRx s.hw = s.hw := by
    unfold dmaRx
    split
    · rfl
    · simp [i.rxDma]
  cases e with
  | load =>
    simp only [step, load]
    rcases i.phase with ⟨p1, p2, p3, p4, p5⟩ | ⟨p1, p2, p3, p4, p5⟩ | ⟨p1, p2, p3, p4, p5⟩ | ⟨p1, p2, p3, p4, p5⟩
    · simp only [p2, p3]; exact i
    · simp only [p2, p3]
      exact { i with phase := Or.inr (Or.inr (Or.inl ⟨p1, rfl, rfl, p4, p5⟩)) }
    · simp only [p3]; exact i
    · simp only [p2, p3]; exact i
  | finish =>
    simp only [step, finish]
    rcases i.phase with ⟨p1, p2, p3, p4, p5⟩ | ⟨p1, p2, p3, p4, p5⟩ | ⟨p1, p2, p3, p4, p5⟩ | ⟨p1, p2, p3, p4, p5⟩
    · simp only [p3]; exact i
    · simp only [p3]; exact i
    · simp only [p3]
      rw [if_pos (by rw [p4]; exact hcap)]
      refine { i with phase := Or.inr (Or.inr (Or.inr ⟨p1, p2, rfl, ?_, ?_⟩)) }
      · simp only [p4, p5, List.nil_append]; rfl
      · simp only [p5]
        rw [take_succ_of (want_get a _ _ i.index), List.append_assoc]
    · simp only [p3]; exact i
  | dmaTx => simp only [step, hdt]; exact i
  | dmaRx => simp only [step, hdr]; exact i
  | irqTx => simp only [step, irqTx, e2, e3, Bool.or_false, Bool.and_false]; exact i
  | irqRx => simp only [step, irqRx, e5, e6, Bool.or_false, Bool.and_false]; exact i
  | faultTx => simp only [step, e1, Bool.and_false]; exact i
  | faultRx => simp only [step, e4, Bool.and_false]; exact i

theorem psteps_inv {s0 : St} (hcap : 0 < c.cap) (es : List Ev) : ∀ s, PInv c a s0 s → PInv c a s0 (steps c es s) := by
  induction es with
  | nil => intro s i; exact i
  | cons e es ih => intro s i; exact ih _ (pstep_inv hcap i e)

/-- The state between two bytes: `index` bytes done, or one more than `index` if `d = 1`. -/
structure Between (c : Cfg) (a : Args) (s0 s : St) : Prop where
  pinv : PInv c a s0 { hw := { s.hw with sent := s0.hw.sent ++ (want a s0.hw.mem).take s.sw.index }, sw := s.sw }
  bit0 : s.sw.bit0 = false
  sent : s.hw.sent = s0.hw.sent ++ (want a s0.hw.mem).take (s.sw.index + 1)

theorem transferByte_inv {s0 s : St} (hcap : 0 < c.cap) (ap : Apart a) (i : PInv c a s0 s) (mid : List Ev) :
    ((transferByte c (a.byte s.hw.mem s.sw.index) mid s).1 = none →
      PInv c a s0 (transferByte c (a.byte s.hw.mem s.sw.index) mid s).2) ∧
    (∀ b, (transferByte c (a.byte s.hw.mem s.sw.index) mid s).1 = some b →
      b = answer c.ans s0.hw.sent (want a s0.hw.mem) (transferByte c (a.byte s.hw.mem s.sw.index) mid s).2.sw.index ∧
      Between c a s0 (transferByte c (a.byte s.hw.mem s.sw.index) mid s).2) := by
  have hbyte : a.byte s.hw.mem s.sw.index = a.byte s0.hw.mem s.sw.index := by
    unfold Args.byte
    cases ht : a.tx with
    | none => rfl
    | some p => exact i.frame _ (fun q hq j hj => (ap p q ht hq _ i.index j hj).symm)
  rw [hbyte]
  unfold transferByte
  by_cases h0 : (!s.sw.bit0 && decide (s.hw.tx.length ≥ c.cap)) = true
  · rw [if_pos h0]
    exact ⟨fun _ => i, fun b hb => by cases hb⟩
  · rw [if_neg h0]
    have i1 : PInv c a s0 (if s.sw.bit0 = true then s
        else { hw := { s.hw with tx := s.hw.tx ++ [a.byte s0.hw.mem s.sw.index] }, sw := { s.sw with bit0 := true } }) := by
      split
      · exact i
      · rename_i hb
        rcases i.phase with ⟨p1, p2, p3, p4, p5⟩ | ⟨p1, _⟩ | ⟨p1, _⟩ | ⟨p1, _⟩
        · exact { i with phase := Or.inr (Or.inl ⟨rfl, by simp only [p2]; rfl, p3, p4, p5⟩) }
        · exact absurd p1 hb
        · exact absurd p1 hb
        · exact absurd p1 hb
    have i2 := psteps_inv hcap mid _ i1
    simp only []
    generalize steps c mid _ = s2 at i2 ⊢
    by_cases hr : s2.hw.rx.isEmpty = true
    · rw [if_pos hr]
      exact ⟨fun _ => i2, fun b hb => by cases hb⟩
    · rw [if_neg hr]
      refine ⟨fun h => (by cases h), fun b hb => ?_⟩
      rcases i2.phase with ⟨p1, p2, p3, p4, p5⟩ | ⟨p1, p2, p3, p4, p5⟩ | ⟨p1, p2, p3, p4, p5⟩ | ⟨p1, p2, p3, p4, p5⟩
      · rw [p4] at hr; exact absurd rfl hr
      · rw [p4] at hr; exact absurd rfl hr
      · rw [p4] at hr; exact absurd rfl hr
      · simp only [Model.SpiStm32.read, p4, List.headD_cons, Option.some.injEq] at hb
        refine ⟨hb.symm, ⟨{ i2 with phase := Or.inl ⟨rfl, p2, p3, ?_, rfl⟩ }, rfl, p5⟩⟩
        simp only [Model.SpiStm32.read, p4]
        split <;> rfl

/-- What holds when the transfer by polling has returned. -/
structure PDone (c : Cfg) (a : Args) (s0 s1 : St) : Prop where
  quiet : Quiet s1
  sent : Sent a s0 s1
  received : Received c a s0 s1
  frame : Frame a s0 s1
  lost : s1.hw.lost = s0.hw.lost

theorem store_inv {s0 s : St} (b : Between c a s0 s) :
    (s.sw.index + 1 < a.length → PInv c a s0 { hw := a.store s.sw.index (answer c.ans s0.hw.sent (want a s0.hw.mem) s.sw.index) s.hw, sw := { s.sw with index := s.sw.index + 1 } }) ∧
    (¬ s.sw.index + 1 < a.length → PDone c a s0 { hw := a.store s.sw.index (answer c.ans s0.hw.sent (want a s0.hw.mem) s.sw.index) s.hw, sw := { s.sw with index := s.sw.index + 1, bit1 := false } }) := by
  have i := b.pinv
  have hph : s.hw.tx = [] ∧ s.hw.shift = none ∧ s.hw.rx = [] := by
    rcases i.phase with ⟨p1, p2, p3, p4, p5⟩ | ⟨p1, _⟩ | ⟨p1, _⟩ | ⟨p1, _⟩
    · exact ⟨p2, p3, p4⟩
    · have := b.bit0; simp only [] at p1; rw [this] at p1; cases p1
    · have := b.bit0; simp only [] at p1; rw [this] at p1; cases p1
    · have := b.bit0; simp only [] at p1; rw [this] at p1; cases p1
  have hi : s.sw.index < a.length := i.index
  cases hq : a.rx with
  | none =>
    simp only [Args.store, hq]
    constructor
    · intro hlt
      exact { index := hlt, bit1 := i.bit1, txDma := i.txDma, rxDma := i.rxDma, clock := i.clock, ct := i.ct, cr := i.cr, lost := i.lost, frame := fun x _ => i.frame x (fun q h => by rw [hq] at h; cases h), stored := fun q h => by (rw [hq] at h; cases h), phase := Or.inl ⟨b.bit0, hph.1, hph.2.1, hph.2.2, b.sent⟩ }
    · intro hge
      refine ⟨⟨hph.1, hph.2.1, hph.2.2, i.txDma, i.rxDma, i.clock, i.ct, i.cr, b.bit0, rfl⟩, ?_, fun q h => by (rw [hq] at h; cases h), fun x _ => i.frame x (fun q h => by rw [hq] at h; cases h), i.lost⟩
      have := b.sent
      rw [List.take_of_length_le (by rw [want_length]; omega)] at this
      exact this
  | some q =>
    simp only [Args.store, hq]
    have hst : ∀ j < s.sw.index + 1, Function.update s.hw.mem (q + s.sw.index) (answer c.ans s0.hw.sent (want a s0.hw.mem) s.sw.index) (q + j) = answer c.ans s0.hw.sent (want a s0.hw.mem) j := by
      intro j hj
      by_cases hji : j = s.sw.index
      · rw [hji, Function.update_self]
      · rw [Function.update_of_ne (by omega)]
        exact i.stored q hq j (by simp only []; omega)
    have hfr : ∀ x, (∀ j < s.sw.index + 1, x ≠ q + j) → Function.update s.hw.mem (q + s.sw.index) (answer c.ans s0.hw.sent (want a s0.hw.mem) s.sw.index) x = s0.hw.mem x := by
      intro x hx
      rw [Function.update_of_ne (hx _ (by omega))]
      refine i.frame x (fun q' h' j hj => ?_)
      rw [hq] at h'
      cases h'
      exact hx j (by simp only [] at hj; omega)
    constructor
    · intro hlt
      exact { index := hlt, bit1 := i.bit1, txDma := i.txDma, rxDma := i.rxDma, clock := i.clock, ct := i.ct, cr := i.cr, lost := i.lost, frame := fun x h => hfr x (h q hq), stored := fun q' h' j hj => by (rw [hq] at h'; cases h'; exact hst j hj), phase := Or.inl ⟨b.bit0, hph.1, hph.2.1, hph.2.2, b.sent⟩ }
    · intro hge
      refine ⟨⟨hph.1, hph.2.1, hph.2.2, i.txDma, i.rxDma, i.clock, i.ct, i.cr, b.bit0, rfl⟩, ?_, ?_, ?_, i.lost⟩
      · have := b.sent
        rw [List.take_of_length_le (by rw [want_length]; omega)] at this
        exact this
      · intro q' h' j hj
        rw [hq] at h'
        cases h'
        exact hst j (by omega)
      · intro x hx
        exact hfr x (fun j hj => hx q hq j (by omega))

theorem loop_inv {s0 : St} (hcap : 0 < c.cap) (ap : Apart a) (mids : List (List Ev)) :
    ∀ s, PInv c a s0 s → ((loop c a mids s).1 = false → PInv c a s0 (loop c a mids s).2) ∧
      ((loop c a mids s).1 = true → PDone c a s0 (loop c a mids s).2) := by
  induction mids with
  | nil => intro s i; exact ⟨fun _ => i, fun h => (by cases h)⟩
  | cons mid mids ih =>
    intro s i
    have hb := transferByte_inv hcap ap i mid
    rw [loop]
    generalize transferByte c (a.byte s.hw.mem s.sw.index) mid s = r at hb ⊢
    obtain ⟨o, s1⟩ := r
    cases o with
    | none => exact ⟨fun _ => hb.1 rfl, fun h => (by cases h)⟩
    | some b =>
      obtain ⟨h1, h2⟩ := hb.2 b rfl
      have h3 := store_inv h2
      simp only [] at h1
      rw [← h1] at h3
      simp only []
      by_cases hlt : s1.sw.index + 1 < a.length
      · rw [if_pos hlt]
        exact ih _ (h3.1 hlt)
      · rw [if_neg hlt]
        exact ⟨fun h => (by cases h), fun _ => h3.2 hlt⟩

theorem transfer_inv {s0 s : St} (hcap : 0 < c.cap) (ap : Apart a) (q : Quiet s0) (mids : List (List Ev))
    (h : s = s0 ∨ PInv c a s0 s) :
    ((transfer c a mids s).1 = false → PInv c a s0 (transfer c a mids s).2) ∧
      ((transfer c a mids s).1 = true → PDone c a s0 (transfer c a mids s).2) := by
  rcases h with h | i
  · subst h
    unfold transfer
    rw [q.bit1]
    simp only [Bool.false_eq_true, if_false]
    by_cases hp : 0 < a.length
    · rw [if_pos hp]
      apply loop_inv hcap ap
      exact { index := hp, bit1 := rfl, txDma := q.txDma, rxDma := q.rxDma, clock := q.clock, ct := q.ct, cr := q.cr, lost := rfl, frame := fun _ _ => rfl, stored := fun _ _ j hj => absurd hj (Nat.not_lt_zero j), phase := Or.inl ⟨q.bit0, q.tx, q.shift, q.rx, by simp⟩ }
    · rw [if_neg hp]
      refine ⟨fun h => (by cases h), fun _ => ⟨⟨q.tx, q.shift, q.rx, q.txDma, q.rxDma, q.clock, q.ct, q.cr, q.bit0, rfl⟩, ?_, fun _ _ j hj => by omega, fun _ _ => rfl, rfl⟩⟩
      have : want a s.hw.mem = [] := by
        apply List.eq_nil_of_length_eq_zero
        rw [want_length]; omega
      unfold Sent
      rw [this]; simp
  · unfold transfer
    rw [i.bit1]
    exact loop_inv hcap ap mids s i

theorem exec_inv {s0 : St} (hcap : 0 < c.cap) (ap : Apart a) (q : Quiet s0) (as : List PollAct) :
    ∀ s, (s = s0 ∨ PInv c a s0 s) → ((exec c a as s).1 = false → ((exec c a as s).2 = s0 ∨ PInv c a s0 (exec c a as s).2)) ∧
      ((exec c a as s).1 = true → PDone c a s0 (exec c a as s).2) := by
  induction as with
  | nil => intro s h; exact ⟨fun _ => h, fun h => (by cases h)⟩
  | cons x as ih =>
    intro s h
    cases x with
    | hw e =>
      rw [exec]
      apply ih
      rcases h with h | i
      · left; rw [h]; exact quiet_step q e
      · right; exact pstep_inv hcap i e
    | call mids =>
      rw [exec]
      have hc := transfer_inv hcap ap q mids h
      generalize transfer c a mids s = r at hc ⊢
      obtain ⟨b, s1⟩ := r
      cases b with
      | true => exact ⟨fun h => (by cases h), fun _ => hc.2 rfl⟩
      | false => exact ih s1 (Or.inr (hc.1 rfl))

/-- With the hardware going on, a call comes to the end. -/
theorem loop_returns {s0 : St} (hcap : 0 < c.cap) (ap : Apart a) (n : Nat) :
    ∀ s, PInv c a s0 s → a.length - s.sw.index ≤ n →
      (loop c a (List.replicate n [.load, .finish]) s).1 = true := by
  induction n with
  | zero => intro s i h; have := i.index; omega
  | succ n ih =>
    intro s i h
    have hb := transferByte_inv hcap ap i [.load, .finish]
    have hsome : (transferByte c (a.byte s.hw.mem s.sw.index) [.load, .finish] s).1.isSome = true ∧
        (transferByte c (a.byte s.hw.mem s.sw.index) [.load, .finish] s).2.sw.index = s.sw.index := by
      rcases i.phase with ⟨p1, p2, p3, p4, p5⟩ | ⟨p1, p2, p3, p4, p5⟩ | ⟨p1, p2, p3, p4, p5⟩ | ⟨p1, p2, p3, p4, p5⟩
      · have : ¬ c.cap ≤ 0 := by omega
        have h2 : c.cap ≠ 0 := by omega
        simp [transferByte, p1, p2, p3, p4, steps, step, load, finish, hcap, h2]
      · simp [transferByte, p1, p2, p3, p4, steps, step, load, finish, hcap]
      · simp [transferByte, p1, p2, p3, p4, steps, step, load, finish, hcap]
      · simp [transferByte, p1, p2, p3, p4, steps, step, load, finish]
    obtain ⟨hs1, hidx⟩ := hsome
    rw [Option.isSome_iff_exists] at hs1
    obtain ⟨b, hs1⟩ := hs1
    rw [List.replicate_succ, loop]
    generalize transferByte c (a.byte s.hw.mem s.sw.index) [.load, .finish] s = r at hb hs1 hidx ⊢
    obtain ⟨o, s1⟩ := r
    simp only [] at hs1 hidx
    subst hs1
    obtain ⟨h1, h2⟩ := hb.2 b rfl
    have h3 := store_inv h2
    simp only [] at h1
    rw [← h1] at h3
    simp only []
    by_cases hlt : s1.sw.index + 1 < a.length
    · rw [if_pos hlt]
      apply ih _ (h3.1 hlt)
      simp only []
      omega
    · rw [if_neg hlt]

end Lemmas.SpiStm32
