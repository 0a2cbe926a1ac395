import Verif.Lemmas.BxcanTx

set_option autoImplicit false

namespace Modm.BxcanTx

open Modm.AtomicQueue (Q next Rep head_le full_iff empty_iff size_eq rep_init rep_push rep_pop rep_get)
open Modm.Uart (rep_store rep_publish isEmpty_iff)
open Spec.BxcanTx

variable {α : Type}

/-! ### Where frames come from, for every interleaving -/

/-- The header and the data of the mailbox are from the list. -/
def Hdr (o : List α) (h : Hw α) (k : Nat) : Prop := h.hdr k ∈ o
def Dat (o : List α) (h : Hw α) (k : Nat) : Prop := h.dat k ∈ o

theorem writeHeader_boxes (h : Hw α) (k : Nat) (m : α) : (writeHeader h k m).boxes = h.boxes := by unfold writeHeader; split <;> rfl
theorem writeData_boxes (h : Hw α) (k : Nat) (m : α) : (writeData h k m).boxes = h.boxes := by unfold writeData; split <;> rfl
theorem writeHeader_wire (h : Hw α) (k : Nat) (m : α) : (writeHeader h k m).wire = h.wire := by unfold writeHeader; split <;> rfl
theorem writeData_wire (h : Hw α) (k : Nat) (m : α) : (writeData h k m).wire = h.wire := by unfold writeData; split <;> rfl
theorem writeHeader_dat (h : Hw α) (k : Nat) (m : α) : (writeHeader h k m).dat = h.dat := by unfold writeHeader; split <;> rfl
theorem writeData_hdr (h : Hw α) (k : Nat) (m : α) : (writeData h k m).hdr = h.hdr := by unfold writeData; split <;> rfl
theorem request_wire (h : Hw α) (k : Nat) : (request h k).wire = h.wire := by unfold request; split <;> rfl
theorem request_hdr (h : Hw α) (k : Nat) : (request h k).hdr = h.hdr := by unfold request; split <;> rfl
theorem request_dat (h : Hw α) (k : Nat) : (request h k).dat = h.dat := by unfold request; split <;> rfl

theorem hdr_keep {o : List α} {h : Hw α} {k j : Nat} {m : α} (hm : m ∈ o) (hj : Hdr o h j) : Hdr o (writeHeader h k m) j := by
  unfold writeHeader Hdr upd; split
  · exact hj
  · dsimp only; split
    · exact hm
    · exact hj

theorem dat_keep {o : List α} {h : Hw α} {k j : Nat} {m : α} (hm : m ∈ o) (hj : Dat o h j) : Dat o (writeData h k m) j := by
  unfold writeData Dat upd; split
  · exact hj
  · dsimp only; split
    · exact hm
    · exact hj

theorem hdr_new {o : List α} {h : Hw α} {k : Nat} {m : α} (hm : m ∈ o) (hj : k ∈ h.boxes → Hdr o h k) : Hdr o (writeHeader h k m) k := by
  unfold writeHeader Hdr upd; split
  · next hc => exact hj (by simpa using hc)
  · simpa using hm

theorem dat_new {o : List α} {h : Hw α} {k : Nat} {m : α} (hm : m ∈ o) (hj : k ∈ h.boxes → Dat o h k) : Dat o (writeData h k m) k := by
  unfold writeData Dat upd; split
  · next hc => exact hj (by simpa using hc)
  · simpa using hm

def MainG (o : List α) (s : State α) : Prop :=
  match s.main with
  | .idle | .ready => True
  | .tsr m | .code m | .header m _ | .full m | .store m | .publish m => m ∈ o
  | .data m k => m ∈ o ∧ Hdr o s.hw k
  | .request m k => m ∈ o ∧ Hdr o s.hw k ∧ Dat o s.hw k

def IsrG (o : List α) (s : State α) : Prop :=
  match s.isr with
  | .data k => Hdr o s.hw k
  | .request k => Hdr o s.hw k ∧ Dat o s.hw k
  | _ => True

/-- A message is in the hands of `sendMessage`. -/
def Main.busy : Main α → Nat
  | .idle | .ready => 0
  | _ => 1

def Isr.popping : Isr → Nat
  | .pop => 1
  | _ => 0

structure GInv (s : State α) (l o : List α) : Prop where
  queue : ∀ m ∈ l, m ∈ o
  main : MainG o s
  isr : IsrG o s
  box : ∀ k ∈ s.hw.boxes, Hdr o s.hw k ∧ Dat o s.hw k
  wire : ∀ p ∈ s.hw.wire, p.1 ∈ o ∧ p.2 ∈ o
  count : s.hw.wire.length + s.hw.boxes.length + l.length + s.main.busy ≤ o.length + s.isr.popping

theorem step_g {cfg : Config} {s s' : State α} {l o : List α} {e : List (Ev α)} (hq : QInv cfg s l) (h : GInv s l o) {a : Act α}
    (hs : step cfg s a = some (s', e)) : GInv s' (nextQ s l a) (o ++ offered e) := by
  obtain ⟨hw, q, mn, isr⟩ := s
  obtain ⟨hr, hi, hm, ho⟩ := hq
  obtain ⟨gq, gm, gi, gb, gw, gc⟩ := h
  dsimp only at gb gw gc
  have same : GInv ⟨hw, q, mn, isr⟩ l (o ++ offered []) := by simpa [offered] using (⟨gq, gm, gi, gb, gw, gc⟩ : GInv ⟨hw, q, mn, isr⟩ l o)
  cases a with
  | call c =>
    cases mn <;> cases isr <;> cases c <;> cases hs <;> first | exact same | skip
    · refine ⟨fun m hm => by simp [gq m hm], ?_, trivial, fun k hk => ?_, fun p hp => ?_, ?_⟩
      · simp [MainG, offered]
      · simp [Hdr, Dat]; exact ⟨.inl (gb k hk).1, .inl (gb k hk).2⟩
      · simp [(gw p hp).1, (gw p hp).2]
      · simp [offered, Main.busy, Isr.popping, nextQ] at gc ⊢; omega
    · simpa [offered, nextQ] using (⟨gq, trivial, trivial, gb, gw, gc⟩ : GInv ⟨hw, q, .ready, .none⟩ l o)
  | complete =>
    cases hb : hw.boxes with
    | nil => simp only [step, hb] at hs; cases hs; exact same
    | cons k rest =>
      simp only [step, hb] at hs; cases hs
      rw [hb] at gb gc
      simp only [offered, List.append_nil]
      refine ⟨gq, ?_, ?_, fun j hj => gb j (List.mem_cons_of_mem _ hj), fun p hp => ?_, ?_⟩
      · cases mn <;> exact gm
      · cases isr <;> exact gi
      · rcases List.mem_append.1 hp with hp | hp
        · exact gw p hp
        · rw [List.mem_singleton.1 hp]; exact gb k (List.mem_cons_self ..)
      · simp [nextQ] at gc ⊢; omega
  | interrupt =>
    cases isr with
    | none =>
      simp only [step] at hs
      split_ifs at hs with hc <;> cases hs
      · simp only [offered, List.append_nil]
        exact ⟨gq, by cases mn <;> exact gm, trivial, gb, gw, gc⟩
      · exact same
    | _ => cases hs; exact same
  | isr =>
    cases isr with
    | none => cases hs; exact same
    | tsr => cases hs; simp only [offered, List.append_nil]; exact ⟨gq, gm, trivial, gb, gw, gc⟩
    | clear k => cases hs; simp only [offered, List.append_nil]; exact ⟨gq, by cases mn <;> exact gm, trivial, gb, gw, gc⟩
    | check k =>
      simp only [step, isrStep] at hs
      split_ifs at hs with he <;> cases hs <;> simp only [offered, List.append_nil]
      · exact ⟨gq, by cases mn <;> exact gm, trivial, gb, gw, gc⟩
      · exact ⟨gq, gm, trivial, gb, gw, gc⟩
    | header k =>
      obtain ⟨m, t, rfl⟩ := List.exists_cons_of_ne_nil hi
      simp only [step, isrStep, rep_get hr] at hs
      cases hs
      have hmo : m ∈ o := gq m (List.mem_cons_self ..)
      simp only [offered, List.append_nil]
      refine ⟨gq, ?_, hdr_new hmo fun hk => (gb k hk).1, fun j hj => ?_, ?_, ?_⟩
      · cases mn with
        | data m' k' => exact ⟨gm.1, hdr_keep hmo gm.2⟩
        | request m' k' => exact ⟨gm.1, hdr_keep hmo gm.2.1, by simpa [Dat, writeHeader_dat] using gm.2.2⟩
        | _ => exact gm
      · rw [writeHeader_boxes] at hj
        exact ⟨hdr_keep hmo (gb j hj).1, by simpa [Dat, writeHeader_dat] using (gb j hj).2⟩
      · rw [writeHeader_wire]; exact gw
      · simpa [writeHeader_wire, writeHeader_boxes, nextQ, Isr.popping] using gc
    | data k =>
      obtain ⟨m, t, rfl⟩ := List.exists_cons_of_ne_nil hi
      simp only [step, isrStep, rep_get hr] at hs
      cases hs
      have hmo : m ∈ o := gq m (List.mem_cons_self ..)
      simp only [offered, List.append_nil]
      refine ⟨gq, ?_, ⟨by simpa [IsrG, Hdr, writeData_hdr] using gi, dat_new hmo fun hk => (gb k hk).2⟩, fun j hj => ?_, ?_, ?_⟩
      · cases mn with
        | data m' k' => exact ⟨gm.1, by simpa [Hdr, writeData_hdr] using gm.2⟩
        | request m' k' => exact ⟨gm.1, by simpa [Hdr, writeData_hdr] using gm.2.1, dat_keep hmo gm.2.2⟩
        | _ => exact gm
      · rw [writeData_boxes] at hj
        exact ⟨by simpa [Hdr, writeData_hdr] using (gb j hj).1, dat_keep hmo (gb j hj).2⟩
      · rw [writeData_wire]; exact gw
      · simpa [writeData_wire, writeData_boxes, nextQ, Isr.popping] using gc
    | request k =>
      cases hs
      simp only [offered, List.append_nil]
      have h0 : 0 < l.length := List.length_pos_iff.2 hi
      refine ⟨gq, ?_, trivial, fun j hj => ?_, ?_, ?_⟩
      · cases mn with
        | data m' k' => exact ⟨gm.1, by simpa [Hdr, request_hdr] using gm.2⟩
        | request m' k' => exact ⟨gm.1, by simpa [Hdr, request_hdr] using gm.2.1, by simpa [Dat, request_dat] using gm.2.2⟩
        | _ => exact gm
      · simp only [Hdr, Dat, request_hdr, request_dat]
        by_cases hk : k ∈ hw.boxes
        · simp only [request, List.contains_eq_mem, hk, decide_true, if_true] at hj; exact gb j hj
        · rw [request_free hk] at hj
          rcases List.mem_append.1 hj with hj | hj
          · exact gb j hj
          · rw [List.mem_singleton.1 hj]; exact gi
      · rw [request_wire]; exact gw
      · rw [request_wire]
        by_cases hk : k ∈ hw.boxes
        · simp [request, hk, Isr.popping, nextQ] at gc ⊢; omega
        · rw [request_free hk]; simp [Isr.popping, nextQ] at gc ⊢; omega
    | pop =>
      cases hs
      simp only [offered, List.append_nil]
      have h0 : 0 < l.length := List.length_pos_iff.2 hi
      refine ⟨fun m hm => gq m (List.mem_of_mem_tail hm), by cases mn <;> exact gm, trivial, gb, gw, ?_⟩
      simp [leave, nextQ, Isr.popping] at gc ⊢; omega
  | main =>
    cases isr with
    | none =>
      cases mn with
      | idle => cases hs; exact same
      | tsr m =>
        simp only [step, mainStep] at hs
        split_ifs at hs with h1 h2 <;> cases hs <;> simp only [offered, List.append_nil]
        · exact ⟨gq, gm, trivial, gb, gw, gc⟩
        · exact ⟨gq, trivial, trivial, gb, gw, by simp [Main.busy, nextQ] at gc ⊢; omega⟩
        · exact ⟨gq, gm, trivial, gb, gw, gc⟩
      | code m => cases hs; simp only [offered, List.append_nil]; exact ⟨gq, gm, trivial, gb, gw, gc⟩
      | header m k =>
        cases hs; simp only [offered, List.append_nil]
        refine ⟨gq, ⟨gm, hdr_new gm fun hk => (gb k hk).1⟩, trivial, fun j hj => ?_, ?_, ?_⟩
        · rw [writeHeader_boxes] at hj
          exact ⟨hdr_keep gm (gb j hj).1, by simpa [Dat, writeHeader_dat] using (gb j hj).2⟩
        · rw [writeHeader_wire]; exact gw
        · simpa [writeHeader_wire, writeHeader_boxes, nextQ, Main.busy] using gc
      | data m k =>
        cases hs; simp only [offered, List.append_nil]
        refine ⟨gq, ⟨gm.1, by simpa [Hdr, writeData_hdr] using gm.2, dat_new gm.1 fun hk => (gb k hk).2⟩, trivial, fun j hj => ?_, ?_, ?_⟩
        · rw [writeData_boxes] at hj
          exact ⟨by simpa [Hdr, writeData_hdr] using (gb j hj).1, dat_keep gm.1 (gb j hj).2⟩
        · rw [writeData_wire]; exact gw
        · simpa [writeData_wire, writeData_boxes, nextQ, Main.busy] using gc
      | request m k =>
        cases hs; simp only [offered, List.append_nil]
        refine ⟨gq, trivial, trivial, fun j hj => ?_, ?_, ?_⟩
        · simp only [Hdr, Dat, request_hdr, request_dat]
          by_cases hk : k ∈ hw.boxes
          · simp only [request, List.contains_eq_mem, hk, decide_true, if_true] at hj; exact gb j hj
          · rw [request_free hk] at hj
            rcases List.mem_append.1 hj with hj | hj
            · exact gb j hj
            · rw [List.mem_singleton.1 hj]; exact gm.2
        · rw [request_wire]; exact gw
        · rw [request_wire]
          by_cases hk : k ∈ hw.boxes
          · simp [request, hk, Main.busy, nextQ] at gc ⊢; omega
          · rw [request_free hk]; simp [Main.busy, nextQ] at gc ⊢; omega
      | full m =>
        simp only [step, mainStep] at hs
        split_ifs at hs with h1 <;> cases hs <;> simp only [offered, List.append_nil]
        · exact ⟨gq, trivial, trivial, gb, gw, by simp [Main.busy, nextQ] at gc ⊢; omega⟩
        · exact ⟨gq, gm, trivial, gb, gw, gc⟩
      | store m =>
        simp only [step, mainStep] at hs
        split_ifs at hs with h1
        cases hs; simp only [offered, List.append_nil]
        exact ⟨gq, gm, trivial, gb, gw, gc⟩
      | publish m =>
        cases hs; simp only [offered, List.append_nil]
        refine ⟨fun x hx => ?_, trivial, trivial, gb, gw, by simp [Main.busy, nextQ] at gc ⊢; omega⟩
        rcases List.mem_append.1 hx with hx | hx
        · exact gq x hx
        · rw [List.mem_singleton.1 hx]; exact gm
      | ready =>
        simp only [step, mainStep] at hs
        split_ifs at hs with h1 <;> cases hs <;> simp only [offered, List.append_nil] <;> exact ⟨gq, trivial, trivial, gb, gw, gc⟩
    | _ => cases hs; exact same

theorem reach_g {cfg : Config} {mem : List α} (hf : Fits cfg mem) {x : α} {ok : State α → Act α → Prop} {s : State α} {tr : List (Ev α)}
    (h : Reach cfg ok (init x mem) s tr) : ∃ l, QInv cfg s l ∧ GInv s l (offered tr) := by
  induction h with
  | start => exact ⟨_, q_init hf x, ⟨by simp, trivial, trivial, by simp [init], by simp [init], by simp [init, Main.busy, offered]⟩⟩
  | step a _ _ hs ih =>
    obtain ⟨l, hl, hg⟩ := ih
    exact ⟨_, step_q hl hs, by rw [offered_append]; exact step_g hl hg hs⟩

/-! ### The driver without a queue, for every interleaving -/

def MainU (s : State α) : Prop :=
  match s.main with
  | .code _ => ∃ k, Free s.hw k
  | .header _ k => Free s.hw k
  | .data m k => Free s.hw k ∧ s.hw.hdr k = m
  | .request m k => Free s.hw k ∧ s.hw.hdr k = m ∧ s.hw.dat k = m
  | .full _ | .store _ | .publish _ => False
  | _ => True

structure UInv (s : State α) (acc : List α) : Prop where
  isr : s.isr = .none
  main : MainU s
  lt : ∀ k ∈ s.hw.boxes, k < 3
  nodup : s.hw.boxes.Nodup
  flow : s.hw.wire ++ s.hw.boxes.map (content s.hw) = acc.map frame

theorem step_u {cfg : Config} (h0 : cfg.txSize = 0) (hc : CodeOk cfg) {s s' : State α} {acc : List α} {e : List (Ev α)} (h : UInv s acc)
    {a : Act α} (hs : step cfg s a = some (s', e)) : UInv s' (acc ++ taken e) := by
  obtain ⟨hw, q, mn, isr⟩ := s
  obtain ⟨hi, hm, hl, hn, hf⟩ := h
  dsimp only at hi hl hn hf
  subst hi
  have same : UInv ⟨hw, q, mn, .none⟩ (acc ++ taken []) := by
    simpa [taken] using (⟨rfl, hm, hl, hn, hf⟩ : UInv ⟨hw, q, mn, .none⟩ acc)
  cases a with
  | call c =>
    cases mn <;> cases c <;> cases hs <;> first | exact same | skip
    all_goals simp only [taken, List.append_nil]; exact ⟨rfl, trivial, hl, hn, hf⟩
  | complete =>
    cases hb : hw.boxes with
    | nil => simp only [step, hb] at hs; cases hs; exact same
    | cons k rest =>
      simp only [step, hb] at hs; cases hs
      rw [hb] at hl hn hf
      simp only [taken, List.append_nil]
      have hk : ∀ j, Free hw j → j < 3 ∧ j ∉ rest := fun j hj => ⟨hj.1, fun h => hj.2 (by rw [hb]; exact List.mem_cons_of_mem _ h)⟩
      refine ⟨rfl, ?_, fun j hj => hl j (List.mem_cons_of_mem _ hj), (List.nodup_cons.1 hn).2, ?_⟩
      · cases mn with
        | code m => obtain ⟨j, hj⟩ := hm; exact ⟨j, hk j hj⟩
        | header m j => exact hk j hm
        | data m j => exact ⟨hk j hm.1, hm.2⟩
        | request m j => exact ⟨hk j hm.1, hm.2⟩
        | _ => exact hm
      · rw [← hf]; simp [content, List.append_assoc]
  | interrupt => simp only [step, h0, ne_eq, not_true_eq_false, false_and, if_false] at hs; cases hs; exact same
  | isr => cases hs; exact same
  | main =>
    cases mn with
    | idle => cases hs; exact same
    | tsr m =>
      simp only [step, mainStep] at hs
      split_ifs at hs with h1 <;> cases hs <;> simp only [taken, List.append_nil]
      · exact ⟨rfl, (anyEmpty_iff hw).1 h1, hl, hn, hf⟩
      · exact ⟨rfl, trivial, hl, hn, hf⟩
    | code m => cases hs; simp only [taken, List.append_nil]; exact ⟨rfl, code_free hc hm, hl, hn, hf⟩
    | header m k =>
      simp only [step, mainStep, writeHeader_free hm.2] at hs
      cases hs; simp only [taken, List.append_nil]
      exact ⟨rfl, ⟨hm, upd_same ..⟩, hl, hn, by rw [map_hdr hm.2]; exact hf⟩
    | data m k =>
      simp only [step, mainStep, writeData_free hm.1.2] at hs
      cases hs; simp only [taken, List.append_nil]
      exact ⟨rfl, ⟨hm.1, hm.2, upd_same ..⟩, hl, hn, by rw [map_dat hm.1.2]; exact hf⟩
    | request m k =>
      simp only [step, mainStep, request_free hm.1.2] at hs
      cases hs; simp only [taken]
      refine ⟨rfl, trivial, fun j hj => ?_, ?_, ?_⟩
      · rcases List.mem_append.1 hj with hj | hj
        · exact hl j hj
        · rw [List.mem_singleton.1 hj]; exact hm.1.1
      · exact List.nodup_append.2 ⟨hn, by simp, fun a ha b hb' e => hm.1.2 (by rw [← List.mem_singleton.1 hb', ← e]; exact ha)⟩
      · have : content { hw with boxes := hw.boxes ++ [k], rqcp := upd hw.rqcp k false } = content hw := rfl
        simp only [List.map_append, List.map_cons, List.map_nil, this, ← List.append_assoc, hf]
        simp only [content, frame, show hw.hdr k = m from hm.2.1, show hw.dat k = m from hm.2.2]
    | ready =>
      simp only [step, mainStep] at hs
      split_ifs at hs
      cases hs; simp only [taken, List.append_nil]; exact ⟨rfl, trivial, hl, hn, hf⟩
    | _ => exact hm.elim

theorem reach_u {cfg : Config} (h0 : cfg.txSize = 0) (hc : CodeOk cfg) {mem : List α} {x : α} {ok : State α → Act α → Prop} {s : State α}
    {tr : List (Ev α)} (h : Reach cfg ok (init x mem) s tr) : UInv s (taken tr) := by
  induction h with
  | start => exact ⟨rfl, trivial, by simp [init], by simp [init], by simp [init, taken]⟩
  | step a _ _ hs ih => rw [taken_append]; exact step_u h0 hc ih hs

/-! ### The driver with a queue, while no transmission ends during a call -/

/-- What waits in the queue. -/
def waiting (s : State α) (l : List α) : List α := if s.isr = .pop then l.tail else l

def MainC (s : State α) : Prop :=
  match s.main with
  | .idle => True
  | .tsr _ | .ready => s.isr = .none ∧ s.hw.pend = false
  | .code _ => s.isr = .none ∧ s.hw.pend = false ∧ ∃ k, Free s.hw k
  | .header _ k => s.isr = .none ∧ s.hw.pend = false ∧ Free s.hw k
  | .data m k => s.isr = .none ∧ s.hw.pend = false ∧ Free s.hw k ∧ s.hw.hdr k = m
  | .request m k => s.isr = .none ∧ s.hw.pend = false ∧ Free s.hw k ∧ s.hw.hdr k = m ∧ s.hw.dat k = m
  | .full _ | .store _ | .publish _ => s.isr = .none ∧ s.hw.pend = false ∧ ∀ k, ¬ Free s.hw k

/-- The mailbox which the handler works on. -/
def Isr.box : Isr → Option Nat
  | .check k | .header k | .data k | .request k => some k
  | _ => Option.none

def IsrC (s : State α) (l : List α) : Prop :=
  match s.isr with
  | .none | .pop => True
  | .tsr => s.hw.pend = false ∧ line s.hw = true
  | .clear k => s.hw.pend = false ∧ Free s.hw k ∧ s.hw.rqcp k = true
  | .check k | .header k => Free s.hw k ∧ s.hw.rqcp k = false
  | .data k => (Free s.hw k ∧ s.hw.rqcp k = false) ∧ some (s.hw.hdr k) = l.head?
  | .request k => (Free s.hw k ∧ s.hw.rqcp k = false) ∧ some (s.hw.hdr k) = l.head? ∧ some (s.hw.dat k) = l.head?

structure CInv (s : State α) (l acc : List α) : Prop where
  main : MainC s
  isr : IsrC s l
  lt : ∀ k ∈ s.hw.boxes, k < 3
  nodup : s.hw.boxes.Nodup
  flag : ∀ k, s.hw.rqcp k = true → Free s.hw k ∧ (s.hw.pend = true ∨ s.isr ≠ .none)
  pend : s.hw.pend = true → line s.hw = true
  free : ∀ k, Free s.hw k → s.hw.rqcp k = true ∨ l = [] ∨ s.isr.box = some k
  flow : s.hw.wire ++ s.hw.boxes.map (content s.hw) ++ (waiting s l).map frame = acc.map frame

theorem step_c {cfg : Config} (h0 : cfg.txSize ≠ 0) (hc : CodeOk cfg) {s s' : State α} {l acc : List α} {e : List (Ev α)} (hq : QInv cfg s l)
    (h : CInv s l acc) {a : Act α} (hok : Calm s a) (hs : step cfg s a = some (s', e)) : CInv s' (nextQ s l a) (acc ++ taken e) := by
  obtain ⟨hw, q, mn, isr⟩ := s
  obtain ⟨hr, hi, hqm, -⟩ := hq
  obtain ⟨cm, ci, hl, hn, hfl, hp, hfr, hf⟩ := h
  dsimp only at hl hn hfl hp hfr hf
  have same : CInv ⟨hw, q, mn, isr⟩ l (acc ++ taken []) := by
    simpa [taken] using (⟨cm, ci, hl, hn, hfl, hp, hfr, hf⟩ : CInv ⟨hw, q, mn, isr⟩ l acc)
  cases a with
  | call c =>
    cases mn <;> cases isr <;> cases c <;> cases hs <;> first | exact same | skip
    all_goals
      simp only [taken, List.append_nil]
      exact ⟨⟨rfl, hok⟩, trivial, hl, hn, hfl, hp, hfr, hf⟩
  | complete =>
    have hmn : mn = .idle := hok
    subst hmn
    cases hb : hw.boxes with
    | nil => simp only [step, hb] at hs; cases hs; exact same
    | cons k rest =>
      simp only [step, hb] at hs; cases hs
      rw [hb] at hl hn hf
      simp only [taken, List.append_nil]
      have hk3 : k < 3 := hl k (List.mem_cons_self ..)
      have hkr : k ∉ rest := (List.nodup_cons.1 hn).1
      have hk : ∀ j, Free hw j → j ≠ k ∧ j < 3 ∧ j ∉ rest := fun j hj =>
        ⟨fun e => hj.2 (by rw [hb, e]; exact List.mem_cons_self ..), hj.1, fun h => hj.2 (by rw [hb]; exact List.mem_cons_of_mem _ h)⟩
      have hline : ∀ w : Hw α, w.rqcp = upd hw.rqcp k true → line w = true := fun w e =>
        (line_iff w).2 ⟨k, hk3, by rw [e]; exact upd_same ..⟩
      refine ⟨trivial, ?_, fun j hj => hl j (List.mem_cons_of_mem _ hj), (List.nodup_cons.1 hn).2, fun j hj => ?_, fun _ => hline _ rfl, fun j hj => ?_, ?_⟩
      · cases isr with
        | none => trivial
        | pop => trivial
        | tsr => exact ⟨by show (hw.pend || !line hw || Isr.tsr == Isr.none) = false; rw [ci.1, ci.2]; rfl, hline _ rfl⟩
        | clear j =>
          have hlj : line hw = true := (line_iff hw).2 ⟨j, ci.2.1.1, ci.2.2⟩
          refine ⟨by show (hw.pend || !line hw || Isr.clear j == Isr.none) = false; rw [ci.1, hlj]; rfl, (hk j ci.2.1).2, ?_⟩
          show upd hw.rqcp k true j = true
          rw [upd_ne _ _ (hk j ci.2.1).1]; exact ci.2.2
        | check j => exact ⟨(hk j ci.1).2, (upd_ne hw.rqcp true (hk j ci.1).1).trans ci.2⟩
        | header j => exact ⟨(hk j ci.1).2, (upd_ne hw.rqcp true (hk j ci.1).1).trans ci.2⟩
        | data j => exact ⟨⟨(hk j ci.1.1).2, (upd_ne hw.rqcp true (hk j ci.1.1).1).trans ci.1.2⟩, ci.2⟩
        | request j => exact ⟨⟨(hk j ci.1.1).2, (upd_ne hw.rqcp true (hk j ci.1.1).1).trans ci.1.2⟩, ci.2⟩
      · by_cases hjk : j = k
        · subst hjk
          refine ⟨⟨hk3, hkr⟩, ?_⟩
          cases isr <;> simp
        · have hj' : hw.rqcp j = true := by rw [← upd_ne hw.rqcp true hjk]; exact hj
          refine ⟨(hk j (hfl j hj').1).2, ?_⟩
          rcases (hfl j hj').2 with h | h
          · left; show (hw.pend || !line hw || isr == Isr.none) = true; rw [h]; rfl
          · exact .inr h
      · by_cases hjk : j = k
        · left; show upd hw.rqcp k true j = true; rw [hjk]; exact upd_same ..
        · rcases hfr j ⟨hj.1, fun h => by
            rw [hb] at h
            rcases List.mem_cons.1 h with h | h
            · exact hjk h
            · exact hj.2 h⟩ with h | h | h
          · left; show upd hw.rqcp k true j = true; rw [upd_ne _ _ hjk]; exact h
          · exact .inr (.inl h)
          · exact .inr (.inr h)
      · rw [← hf]
        have : waiting ⟨{ hw with boxes := rest, rqcp := upd hw.rqcp k true, pend := hw.pend || !line hw || isr == Isr.none, wire := hw.wire ++ [(hw.hdr k, hw.dat k)] }, q, .idle, isr⟩ l = waiting ⟨hw, q, .idle, isr⟩ l := rfl
        simp [nextQ, waiting, content, List.append_assoc]
  | interrupt =>
    cases isr with
    | none =>
      simp only [step] at hs
      split_ifs at hs with hcd <;> cases hs
      · simp only [taken, List.append_nil]
        have hm : mn = .idle := by
          cases mn <;> first | rfl | (exfalso; have := cm.2; simp_all [MainC])
        subst hm
        exact ⟨trivial, ⟨rfl, hp hcd.2⟩, hl, hn, fun k hk => ⟨(hfl k hk).1, .inr (by simp)⟩, by simp, hfr, hf⟩
      · exact same
    | _ => cases hs; exact same
  | isr =>
    by_cases hin : isr = .none
    · subst hin; cases hs; exact same
    have hm : mn = .idle := by
      cases mn <;> first | rfl | (exfalso; exact hin cm.1)
    subst hm
    cases isr with
    | none => exact absurd rfl hin
    | tsr =>
      cases hs
      simp only [taken, List.append_nil]
      have hx : hw.rqcp (if hw.rqcp 2 then 2 else if hw.rqcp 1 then 1 else 0) = true := by
        have := ci.2
        simp only [line, Bool.or_eq_true] at this
        split_ifs with h2 h1
        · exact h2
        · exact h1
        · simpa [h2, h1] using this
      refine ⟨trivial, ⟨ci.1, (hfl _ hx).1, hx⟩, hl, hn, fun k hk => ⟨(hfl k hk).1, .inr (by simp)⟩, hp, fun k hk => ?_, ?_⟩
      · rcases hfr k hk with h | h | h
        · exact .inl h
        · exact .inr (.inl h)
        · simp [Isr.box] at h
      · simpa [waiting, nextQ] using hf
    | clear k =>
      cases hs
      simp only [taken, List.append_nil]
      refine ⟨trivial, ⟨ci.2.1, upd_same ..⟩, hl, hn, fun j hj => ?_, fun h => ?_, fun j hj => ?_, ?_⟩
      · by_cases hjk : j = k
        · rw [hjk] at hj; simp [upd] at hj
        · exact ⟨(hfl j (by rw [← upd_ne hw.rqcp false hjk]; exact hj)).1, .inr (by simp)⟩
      · exact absurd (show hw.pend = true from h) (by rw [ci.1]; simp)
      · by_cases hjk : j = k
        · right; right; simp [Isr.box, hjk]
        · rcases hfr j hj with h | h | h
          · left; show upd hw.rqcp k false j = true; rw [upd_ne _ _ hjk]; exact h
          · exact .inr (.inl h)
          · simp [Isr.box] at h
      · have : content { hw with rqcp := upd hw.rqcp k false } = content hw := rfl
        simp only [waiting, if_neg (show ¬ Isr.clear k = Isr.pop by simp)] at hf
        simp only [this, waiting, nextQ, if_neg (show ¬ Isr.check k = Isr.pop by simp)]
        exact hf
    | check k =>
      simp only [step, isrStep] at hs
      split_ifs at hs with he <;> cases hs <;> simp only [taken, List.append_nil]
      · have hl0 : l = [] := (isEmpty_iff hr).1 he
        refine ⟨trivial, trivial, hl, hn, fun j hj => ⟨(hfl j hj).1, .inl ?_⟩, fun h => ?_, fun j hj => .inr (.inl hl0), ?_⟩
        · show (hw.pend || line hw) = true
          rw [(line_iff hw).2 ⟨j, (hfl j hj).1.1, hj⟩, Bool.or_true]
        · rcases Bool.or_eq_true _ _ ▸ h with h | h
          · exact hp h
          · exact h
        · have : content { hw with pend := hw.pend || line hw } = content hw := rfl
          simp only [waiting, if_neg (show ¬ Isr.check k = Isr.pop by simp)] at hf
          simp only [leave, this, waiting, nextQ]
          exact hf
      · exact ⟨trivial, ci, hl, hn, fun j hj => ⟨(hfl j hj).1, .inr (by simp)⟩, hp, hfr, by simpa [waiting, nextQ] using hf⟩
    | header k =>
      obtain ⟨m, t, rfl⟩ := List.exists_cons_of_ne_nil hi
      simp only [step, isrStep, rep_get hr, writeHeader_free (show k ∉ hw.boxes from ci.1.2)] at hs
      cases hs
      simp only [taken, List.append_nil]
      refine ⟨trivial, ⟨ci, by show some (upd hw.hdr k m k) = _; rw [upd_same]; rfl⟩, hl, hn, fun j hj => ⟨(hfl j hj).1, .inr (by simp)⟩, hp, hfr, ?_⟩
      rw [map_hdr ci.1.2]; simpa [waiting, nextQ] using hf
    | data k =>
      obtain ⟨m, t, rfl⟩ := List.exists_cons_of_ne_nil hi
      simp only [step, isrStep, rep_get hr, writeData_free (show k ∉ hw.boxes from ci.1.1.2)] at hs
      cases hs
      simp only [taken, List.append_nil]
      refine ⟨trivial, ⟨ci.1, ci.2, by show some (upd hw.dat k m k) = _; rw [upd_same]; rfl⟩, hl, hn, fun j hj => ⟨(hfl j hj).1, .inr (by simp)⟩, hp, hfr, ?_⟩
      rw [map_dat ci.1.1.2]; simpa [waiting, nextQ] using hf
    | request k =>
      obtain ⟨m, t, rfl⟩ := List.exists_cons_of_ne_nil hi
      simp only [step, isrStep, request_free (show k ∉ hw.boxes from ci.1.1.2)] at hs
      cases hs
      simp only [taken, List.append_nil]
      have hsub : ∀ j, j < 3 ∧ j ∉ hw.boxes ++ [k] → Free hw j ∧ j ≠ k := fun j hj =>
        ⟨⟨hj.1, fun h => hj.2 (List.mem_append_left _ h)⟩, fun e => hj.2 (by simp [e])⟩
      have hflag : ∀ j, upd hw.rqcp k false j = true → hw.rqcp j = true ∧ j ≠ k := fun j hj => by
        by_cases hjk : j = k
        · rw [hjk] at hj; simp [upd] at hj
        · exact ⟨by rw [← upd_ne hw.rqcp false hjk]; exact hj, hjk⟩
      refine ⟨trivial, trivial, fun j hj => ?_, ?_, fun j hj => ⟨⟨(hfl j (hflag j hj).1).1.1, ?_⟩, .inr (by simp)⟩, fun h => ?_, fun j hj => ?_, ?_⟩
      · rcases List.mem_append.1 hj with hj | hj
        · exact hl j hj
        · rw [List.mem_singleton.1 hj]; exact ci.1.1.1
      · exact List.nodup_append.2 ⟨hn, by simp, fun a ha b hb' e => ci.1.1.2 (by rw [← List.mem_singleton.1 hb', ← e]; exact ha)⟩
      · intro h
        rcases List.mem_append.1 h with h | h
        · exact (hfl j (hflag j hj).1).1.2 h
        · exact (hflag j hj).2 (List.mem_singleton.1 h)
      · obtain ⟨j, hj3, hj⟩ := (line_iff hw).1 (hp h)
        have hjk : j ≠ k := fun e => by
          have h1 : hw.rqcp k = false := ci.1.2
          rw [e, h1] at hj; simp at hj
        exact (line_iff _).2 ⟨j, hj3, (upd_ne hw.rqcp false hjk).trans hj⟩
      · rcases hfr j (hsub j hj).1 with h | h | h
        · left; show upd hw.rqcp k false j = true; rw [upd_ne _ _ (hsub j hj).2]; exact h
        · exact .inr (.inl h)
        · simp only [Isr.box, Option.some.injEq] at h; exact absurd h.symm (hsub j hj).2
      · have h1 : hw.hdr k = m := by simpa using ci.2.1
        have h2 : hw.dat k = m := by simpa using ci.2.2
        have : content { hw with boxes := hw.boxes ++ [k], rqcp := upd hw.rqcp k false } = content hw := rfl
        simp only [this]
        rw [← hf]
        simp [waiting, nextQ, content, h1, h2, frame]
    | pop =>
      obtain ⟨m, t, rfl⟩ := List.exists_cons_of_ne_nil hi
      cases hs
      simp only [taken, List.append_nil]
      refine ⟨trivial, trivial, hl, hn, fun j hj => ⟨(hfl j hj).1, .inl ?_⟩, fun h => ?_, fun j hj => ?_, ?_⟩
      · show (hw.pend || line hw) = true
        rw [(line_iff hw).2 ⟨j, (hfl j hj).1.1, hj⟩, Bool.or_true]
      · rcases Bool.or_eq_true _ _ ▸ h with h | h
        · exact hp h
        · exact h
      · rcases hfr j hj with h | h | h
        · exact .inl h
        · simp at h
        · simp [Isr.box] at h
      · have : content { hw with pend := hw.pend || line hw } = content hw := rfl
        simp only [waiting, if_true, List.tail_cons] at hf
        simp only [leave, this, waiting, nextQ, List.tail_cons]
        exact hf
  | main =>
    cases isr with
    | none =>
      cases mn with
      | idle => cases hs; exact same
      | tsr m =>
        simp only [step, mainStep] at hs
        split_ifs at hs with h1 <;> cases hs <;> simp only [taken, List.append_nil]
        · exact ⟨⟨rfl, cm.2, (anyEmpty_iff hw).1 h1⟩, trivial, hl, hn, hfl, hp, hfr, hf⟩
        · exact ⟨⟨rfl, cm.2, fun k hk => h1 ((anyEmpty_iff hw).2 ⟨k, hk⟩)⟩, trivial, hl, hn, hfl, hp, hfr, hf⟩
      | code m => cases hs; simp only [taken, List.append_nil]; exact ⟨⟨rfl, cm.2.1, code_free hc cm.2.2⟩, trivial, hl, hn, hfl, hp, hfr, hf⟩
      | header m k =>
        simp only [step, mainStep, writeHeader_free cm.2.2.2] at hs
        cases hs; simp only [taken, List.append_nil]
        exact ⟨⟨rfl, cm.2.1, cm.2.2, upd_same ..⟩, trivial, hl, hn, hfl, hp, hfr, by rw [map_hdr cm.2.2.2]; exact hf⟩
      | data m k =>
        simp only [step, mainStep, writeData_free cm.2.2.1.2] at hs
        cases hs; simp only [taken, List.append_nil]
        exact ⟨⟨rfl, cm.2.1, cm.2.2.1, cm.2.2.2, upd_same ..⟩, trivial, hl, hn, hfl, hp, hfr, by rw [map_dat cm.2.2.1.2]; exact hf⟩
      | request m k =>
        obtain ⟨-, hpf, hk, h1, h2⟩ := cm
        simp only [step, mainStep, request_free hk.2] at hs
        cases hs; simp only [taken]
        have hpf : hw.pend = false := hpf
        have hno : ∀ j, hw.rqcp j = false := fun j => by
          cases hj : hw.rqcp j with
          | false => rfl
          | true => rcases (hfl j hj).2 with h | h
                    · rw [hpf] at h; simp at h
                    · exact absurd rfl h
        have hno' : ∀ j, upd hw.rqcp k false j = false := fun j => by unfold upd; split <;> simp [hno]
        have hl0 : l = [] := by
          rcases hfr k hk with h | h | h
          · rw [hno k] at h; simp at h
          · exact h
          · simp [Isr.box] at h
        refine ⟨trivial, trivial, fun j hj => ?_, ?_, fun j hj => ?_, fun h => ?_, fun j hj => .inr (.inl ?_), ?_⟩
        · rcases List.mem_append.1 hj with hj | hj
          · exact hl j hj
          · rw [List.mem_singleton.1 hj]; exact hk.1
        · exact List.nodup_append.2 ⟨hn, by simp, fun a ha b hb' e => hk.2 (by rw [← List.mem_singleton.1 hb', ← e]; exact ha)⟩
        · exact absurd (show upd hw.rqcp k false j = true from hj) (by rw [hno' j]; simp)
        · exact absurd (show hw.pend = true from h) (by rw [hpf]; simp)
        · exact hl0
        · have h1 : hw.hdr k = m := h1
          have h2 : hw.dat k = m := h2
          have : content { hw with boxes := hw.boxes ++ [k], rqcp := upd hw.rqcp k false } = content hw := rfl
          simp only [this]
          subst hl0
          simp only [waiting, nextQ, if_neg (show ¬ Isr.none = Isr.pop by simp), List.map_nil, List.append_nil] at hf ⊢
          rw [List.map_append, ← List.append_assoc, hf]
          simp [content, h1, h2, frame]
      | full m =>
        simp only [step, mainStep] at hs
        split_ifs at hs with h1 <;> cases hs <;> simp only [taken, List.append_nil]
        · exact ⟨trivial, trivial, hl, hn, hfl, hp, hfr, hf⟩
        · exact ⟨cm, trivial, hl, hn, hfl, hp, hfr, hf⟩
      | store m =>
        simp only [step, mainStep] at hs
        split_ifs at hs with h1
        cases hs; simp only [taken, List.append_nil]
        exact ⟨cm, trivial, hl, hn, hfl, hp, hfr, hf⟩
      | publish m =>
        cases hs; simp only [taken]
        refine ⟨trivial, trivial, hl, hn, hfl, hp, fun j hj => absurd hj (cm.2.2 j), ?_⟩
        simp only [waiting, nextQ, if_neg (show ¬ Isr.none = Isr.pop by simp), List.map_append, ← List.append_assoc] at hf ⊢
        rw [hf]
      | ready =>
        simp only [step, mainStep] at hs
        rw [if_neg h0] at hs
        cases hs; simp only [taken, List.append_nil]; exact ⟨trivial, trivial, hl, hn, hfl, hp, hfr, hf⟩
    | _ => cases hs; exact same

theorem reach_c {cfg : Config} (h0 : cfg.txSize ≠ 0) (hc : CodeOk cfg) {mem : List α} (hf : Fits cfg mem) {x : α} {s : State α} {tr : List (Ev α)}
    (h : Reach cfg Calm (init x mem) s tr) : ∃ l, QInv cfg s l ∧ CInv s l (taken tr) := by
  induction h with
  | start =>
    exact ⟨[], q_init hf x, ⟨trivial, trivial, by simp [init], by simp [init], by simp [init], by simp [init], fun _ _ => .inr (.inl rfl), by simp [init, taken, waiting]⟩⟩
  | step a _ ha hs ih =>
    obtain ⟨l, hl, hg⟩ := ih
    exact ⟨_, step_q hl hs, by rw [taken_append]; exact step_c h0 hc hl hg ha hs⟩

theorem run_cons {cfg : Config} {s s1 : State α} {e1 : List (Ev α)} {a : Act α} (h : step cfg s a = some (s1, e1)) {as : List (Act α)}
    {s2 : State α} {e2 : List (Ev α)} (h2 : run cfg s1 as = some (s2, e2)) : run cfg s (a :: as) = some (s2, e1 ++ e2) := by
  simp [run, h, h2]

/-! ### Draining -/

def nflags (h : Hw α) : Nat := (h.rqcp 0).toNat + (h.rqcp 1).toNat + (h.rqcp 2).toNat

theorem nflags_set {h h' : Hw α} {k : Nat} (hk : k < 3) (h0 : h.rqcp k = false) (he : h'.rqcp = upd h.rqcp k true) : nflags h' = nflags h + 1 := by
  unfold nflags; rw [he]
  match k, hk, h0 with
  | 0, _, h0 => simp [upd, h0]; omega
  | 1, _, h0 => simp [upd, h0]; omega
  | 2, _, h0 => simp [upd, h0]

theorem nflags_clear {h h' : Hw α} {k : Nat} (hk : k < 3) (h0 : h.rqcp k = true) (he : h'.rqcp = upd h.rqcp k false) : nflags h' + 1 = nflags h := by
  unfold nflags; rw [he]
  match k, hk, h0 with
  | 0, _, h0 => simp [upd, h0]; omega
  | 1, _, h0 => simp [upd, h0]; omega
  | 2, _, h0 => simp [upd, h0]

theorem upd_eq_self {β : Type} (f : Nat → β) {k : Nat} {v : β} (h : f k = v) : upd f k v = f := by
  funext j; unfold upd; split
  · next e => rw [e, h]
  · rfl

def rank (s : State α) : Nat :=
  match s.isr with
  | .none => 20 + s.hw.pend.toNat
  | .tsr => 20
  | .clear _ => 19
  | .check _ => 40
  | .header _ => 39
  | .data _ => 38
  | .request _ => 37
  | .pop => 36

def todo (s : State α) (l : List α) : Nat := 50 * (waiting s l).length + 45 * s.hw.boxes.length + 40 * nflags s.hw + rank s

/-- While there is something to do, something happens. -/
theorem progress {cfg : Config} (h0 : cfg.txSize ≠ 0) {s : State α} {l acc : List α} (hq : QInv cfg s l) (h : CInv s l acc) (hm : s.main = .idle) :
    (s.isr = .none ∧ s.hw.boxes = [] ∧ l = []) ∨
    ∃ a s', Auto a ∧ step cfg s a = some (s', []) ∧ s'.main = .idle ∧ todo s' (nextQ s l a) < todo s l := by
  obtain ⟨hw, q, mn, isr⟩ := s
  obtain ⟨hr, hi, hqm, -⟩ := hq
  obtain ⟨cm, ci, hl, hn, hfl, hp, hfr, hf⟩ := h
  dsimp only at hl hn hfl hp hfr hf hm
  subst hm
  cases isr with
  | none =>
    cases hpd : hw.pend with
    | true =>
      right
      refine ⟨.interrupt, _, trivial, by simp only [step]; rw [if_pos ⟨h0, hpd⟩], rfl, ?_⟩
      simp [todo, nextQ, waiting, rank, hpd, nflags]
    | false =>
      cases hb : hw.boxes with
      | nil =>
        left
        refine ⟨rfl, rfl, ?_⟩
        rcases hfr 0 ⟨by omega, by simp [hb]⟩ with h | h | h
        · rcases (hfl 0 h).2 with h | h
          · rw [hpd] at h; simp at h
          · exact absurd rfl h
        · exact h
        · simp [Isr.box] at h
      | cons k rest =>
        right
        have hk3 : k < 3 := hl k (by rw [hb]; exact List.mem_cons_self ..)
        have hk0 : hw.rqcp k = false := by
          cases hj : hw.rqcp k with
          | false => rfl
          | true => exact absurd (by rw [hb]; exact List.mem_cons_self ..) (hfl k hj).1.2
        refine ⟨.complete, _, trivial, by simp only [step, hb]; rfl, rfl, ?_⟩
        have := nflags_set (h' := { hw with
          boxes := rest
          rqcp := upd hw.rqcp k true
          pend := hw.pend || !line hw || Isr.none == Isr.none
          wire := hw.wire ++ [(hw.hdr k, hw.dat k)] }) hk3 hk0 rfl
        simp only [todo, nextQ, waiting, rank, hb, List.length_cons, this]
        have h1 := Bool.toNat_le (hw.pend || !line hw || Isr.none == Isr.none)
        omega
  | tsr => right; exact ⟨.isr, _, trivial, rfl, rfl, by simp [todo, nextQ, waiting, rank]⟩
  | clear k =>
    right
    refine ⟨.isr, _, trivial, rfl, rfl, ?_⟩
    have := nflags_clear (h' := { hw with rqcp := upd hw.rqcp k false }) ci.2.1.1 ci.2.2 rfl
    dsimp only at this
    simp [todo, nextQ, waiting, rank]; omega
  | check k =>
    right
    have h1 := Bool.toNat_le (hw.pend || line hw)
    by_cases he : AtomicQueue.isEmpty q = true
    · refine ⟨.isr, leave ⟨hw, q, .idle, .check k⟩, trivial, by simp only [step, isrStep]; rw [if_pos he], rfl, ?_⟩
      simp [todo, nextQ, waiting, rank, leave, nflags]; omega
    · refine ⟨.isr, ⟨hw, q, .idle, .header k⟩, trivial, by simp only [step, isrStep]; rw [if_neg he], rfl, ?_⟩
      simp [todo, nextQ, waiting, rank]
  | header k =>
    right
    obtain ⟨m, t, rfl⟩ := List.exists_cons_of_ne_nil hi
    refine ⟨.isr, ⟨writeHeader hw k m, q, .idle, .data k⟩, trivial, by simp only [step, isrStep, rep_get hr], rfl, ?_⟩
    rw [writeHeader_free (show k ∉ hw.boxes from ci.1.2)]
    simp [todo, nextQ, waiting, rank, nflags]
  | data k =>
    right
    obtain ⟨m, t, rfl⟩ := List.exists_cons_of_ne_nil hi
    refine ⟨.isr, ⟨writeData hw k m, q, .idle, .request k⟩, trivial, by simp only [step, isrStep, rep_get hr], rfl, ?_⟩
    rw [writeData_free (show k ∉ hw.boxes from ci.1.1.2)]
    simp [todo, nextQ, waiting, rank, nflags]
  | request k =>
    right
    obtain ⟨m, t, rfl⟩ := List.exists_cons_of_ne_nil hi
    refine ⟨.isr, _, trivial, rfl, rfl, ?_⟩
    rw [request_free (show k ∉ hw.boxes from ci.1.1.2), upd_eq_self hw.rqcp (show hw.rqcp k = false from ci.1.2)]
    simp [todo, nextQ, waiting, rank, nflags]; omega
  | pop =>
    right
    have h1 := Bool.toNat_le (hw.pend || line hw)
    refine ⟨.isr, _, trivial, rfl, rfl, ?_⟩
    simp [todo, nextQ, waiting, rank, leave, nflags]; omega

theorem calm_auto {s : State α} {a : Act α} (h : Auto a) (hm : s.main = .idle) : Calm s a := by
  cases a <;> first | exact h.elim | exact hm | trivial

theorem drain_c {cfg : Config} (h0 : cfg.txSize ≠ 0) (hc : CodeOk cfg) : ∀ (n : Nat) (s : State α) (l acc : List α), todo s l = n → QInv cfg s l → CInv s l acc →
    s.main = .idle → ∃ as s', (∀ a ∈ as, Auto a) ∧ run cfg s as = some (s', []) ∧ s'.hw.wire = acc.map frame := by
  intro n
  induction n using Nat.strongRecOn with
  | _ n ih =>
    intro s l acc hn hq h hm
    rcases progress h0 hq h hm with ⟨h1, h2, rfl⟩ | ⟨a, s1, ha, hs, hm1, hlt⟩
    · refine ⟨[], s, by simp, rfl, ?_⟩
      have := h.flow
      simpa [h2, waiting] using this
    · have hc1 := step_c h0 hc hq h (calm_auto ha hm) hs
      simp only [taken, List.append_nil] at hc1
      obtain ⟨as, s2, h3, h4, h5⟩ := ih _ (by omega) s1 _ acc rfl (step_q hq hs) hc1 hm1
      refine ⟨a :: as, s2, ?_, run_cons hs h4, h5⟩
      intro b hb
      rcases List.mem_cons.1 hb with rfl | hb
      · exact ha
      · exact h3 b hb

theorem drain_u {cfg : Config} (h0 : cfg.txSize = 0) (hc : CodeOk cfg) : ∀ (n : Nat) (s : State α) (acc : List α), s.hw.boxes.length = n → UInv s acc →
    ∃ as s', (∀ a ∈ as, Auto a) ∧ run cfg s as = some (s', []) ∧ s'.main = s.main ∧ s'.hw.wire = acc.map frame := by
  intro n
  induction n with
  | zero =>
    intro s acc hn h
    refine ⟨[], s, by simp, rfl, rfl, ?_⟩
    have := h.flow
    simpa [List.length_eq_zero_iff.1 hn] using this
  | succ n ih =>
    intro s acc hn h
    obtain ⟨k, rest, hb⟩ := List.exists_cons_of_length_eq_add_one hn
    have hs : step cfg s .complete = some ({ s with hw := { s.hw with
        boxes := rest
        rqcp := upd s.hw.rqcp k true
        pend := s.hw.pend || !line s.hw || s.isr == .none
        wire := s.hw.wire ++ [(s.hw.hdr k, s.hw.dat k)] } }, []) := by simp only [step, hb]
    have hu := step_u h0 hc h hs
    simp only [taken, List.append_nil] at hu
    obtain ⟨as, s2, h3, h4, h5, h6⟩ := ih _ acc (by rw [hb] at hn; simpa using hn) hu
    refine ⟨.complete :: as, s2, ?_, run_cons hs h4, h5, h6⟩
    intro b hb
    rcases List.mem_cons.1 hb with rfl | hb
    · trivial
    · exact h3 b hb

/-! ### `isReadyToSend` -/

def Room (cfg : Config) (s : State α) (l : List α) : Prop :=
  (cfg.txSize ≠ 0 → l.length < cfg.txSize) ∧ (cfg.txSize = 0 → ∃ k, Free s.hw k)

/-- Without a queue only a request makes a mailbox pending, and then `sendMessage` returns. -/
theorem step_room {cfg : Config} {s s' : State α} {l : List α} {e : List (Ev α)} (hq : QInv cfg s l) {a : Act α}
    (hs : step cfg s a = some (s', e)) (b : Bool) (hb : b = true → Room cfg s l) :
    announced b e = true → Room cfg s' (nextQ s l a) := by
  obtain ⟨hw, q, mn, isr⟩ := s
  obtain ⟨hr, hi, hqm, ho⟩ := hq
  dsimp only at hb ho
  have same : announced b ([] : List (Ev α)) = true → Room cfg ⟨hw, q, mn, isr⟩ l := hb
  cases a with
  | call c => cases mn <;> cases isr <;> cases c <;> cases hs <;> exact fun h => hb h
  | complete =>
    cases hbx : hw.boxes with
    | nil => simp only [step, hbx] at hs; cases hs; exact same
    | cons k rest =>
      simp only [step, hbx] at hs; cases hs
      intro h
      refine ⟨(hb h).1, fun hz => ?_⟩
      obtain ⟨j, hj⟩ := (hb h).2 hz
      exact ⟨j, hj.1, fun h' => hj.2 (by show j ∈ hw.boxes; rw [hbx]; exact List.mem_cons_of_mem _ h')⟩
  | interrupt =>
    cases isr with
    | none =>
      simp only [step] at hs
      split_ifs at hs with hcd <;> cases hs <;> exact fun h => hb h
    | _ => cases hs; exact same
  | isr =>
    by_cases hin : isr = .none
    · subst hin; cases hs; exact same
    have hz : cfg.txSize ≠ 0 := fun h => hin (ho h)
    cases isr with
    | none => exact absurd rfl hin
    | check k => simp only [step, isrStep] at hs; split_ifs at hs <;> cases hs <;> exact fun h => hb h
    | header k =>
      obtain ⟨m, t, rfl⟩ := List.exists_cons_of_ne_nil hi
      simp only [step, isrStep, rep_get hr] at hs
      cases hs; exact fun h => ⟨(hb h).1, fun h' => absurd h' hz⟩
    | data k =>
      obtain ⟨m, t, rfl⟩ := List.exists_cons_of_ne_nil hi
      simp only [step, isrStep, rep_get hr] at hs
      cases hs; exact fun h => ⟨(hb h).1, fun h' => absurd h' hz⟩
    | request k => cases hs; exact fun h => ⟨(hb h).1, fun h' => absurd h' hz⟩
    | pop =>
      cases hs
      intro h
      refine ⟨fun _ => ?_, fun h' => absurd h' hz⟩
      have := (hb h).1 hz
      simp [nextQ]; omega
    | _ => cases hs; exact fun h => hb h
  | main =>
    cases isr with
    | none =>
      cases mn with
      | tsr m => simp only [step, mainStep] at hs; split_ifs at hs <;> cases hs <;> simp only [announced] <;> first | exact fun h => hb h | simp
      | header m k =>
        cases hs; intro h
        exact ⟨(hb h).1, fun h' => by simpa only [Free, writeHeader_boxes] using (hb h).2 h'⟩
      | data m k =>
        cases hs; intro h
        exact ⟨(hb h).1, fun h' => by simpa only [Free, writeData_boxes] using (hb h).2 h'⟩
      | request m k => cases hs; simp [announced]
      | full m => simp only [step, mainStep] at hs; split_ifs at hs <;> cases hs <;> simp only [announced] <;> first | exact fun h => hb h | simp
      | store m => simp only [step, mainStep] at hs; split_ifs at hs; cases hs; exact fun h => hb h
      | publish m => cases hs; simp [announced]
      | ready =>
        simp only [step, mainStep] at hs
        split_ifs at hs with h1 <;> cases hs <;> simp only [announced]
        · intro h
          exact ⟨fun h' => absurd h1 h', fun _ => (anyEmpty_iff hw).1 h⟩
        · intro h
          refine ⟨fun _ => ?_, fun h' => absurd h' h1⟩
          have h2 : l.length ≠ cfg.txSize := fun e => by
            simp [AtomicQueue.isFull, (full_iff hr).2 e] at h
          have := hr.sz
          show l.length < cfg.txSize
          omega
      | _ => cases hs; exact fun h => hb h
    | _ => cases hs; exact same

theorem reach_room {cfg : Config} {mem : List α} (hf : Fits cfg mem) {x : α} {ok : State α → Act α → Prop} {s : State α} {tr : List (Ev α)}
    (h : Reach cfg ok (init x mem) s tr) : ∃ l, QInv cfg s l ∧ (announced false tr = true → Room cfg s l) := by
  induction h with
  | start => exact ⟨_, q_init hf x, by simp [announced]⟩
  | step a _ _ hs ih =>
    obtain ⟨l, hl, hg⟩ := ih
    exact ⟨_, step_q hl hs, by rw [announced_append]; exact step_room hl hs _ hg⟩

/-- When `sendMessage` refuses a message there is no room. -/
theorem refused {cfg : Config} {s s' : State α} {l : List α} {e : List (Ev α)} (hq : QInv cfg s l) {a : Act α}
    (hs : step cfg s a = some (s', e)) {m : α} (he : Ev.sent m false ∈ e) : ¬ Room cfg s l := by
  obtain ⟨hw, q, mn, isr⟩ := s
  obtain ⟨hr, hi, hqm, ho⟩ := hq
  cases a with
  | call c => cases mn <;> cases isr <;> cases c <;> cases hs <;> simp at he
  | complete => cases hbx : hw.boxes <;> simp only [step, hbx] at hs <;> cases hs <;> simp at he
  | interrupt =>
    cases isr with
    | none => simp only [step] at hs; split_ifs at hs <;> cases hs <;> simp at he
    | _ => cases hs; simp at he
  | isr =>
    cases isr with
    | check k => simp only [step, isrStep] at hs; split_ifs at hs <;> cases hs <;> simp at he
    | header k =>
      obtain ⟨m, t, rfl⟩ := List.exists_cons_of_ne_nil hi
      simp only [step, isrStep, rep_get hr] at hs; cases hs; simp at he
    | data k =>
      obtain ⟨m, t, rfl⟩ := List.exists_cons_of_ne_nil hi
      simp only [step, isrStep, rep_get hr] at hs; cases hs; simp at he
    | _ => cases hs; simp at he
  | main =>
    cases isr with
    | none =>
      cases mn with
      | tsr m' =>
        simp only [step, mainStep] at hs
        split_ifs at hs with h1 h2 <;> cases hs <;> simp at he
        exact fun h => h1 ((anyEmpty_iff hw).2 (h.2 h2))
      | full m' =>
        simp only [step, mainStep] at hs
        split_ifs at hs with h1 <;> cases hs <;> simp at he
        intro h
        have h2 := h.1 hqm
        have h3 := (full_iff hr).1 h1
        omega
      | store m' => simp only [step, mainStep] at hs; split_ifs at hs; cases hs; simp at he
      | ready => simp only [step, mainStep] at hs; split_ifs at hs <;> cases hs <;> simp at he
      | _ => cases hs; simp at he
    | _ => cases hs; simp at he

end Modm.BxcanTx
