import Verif.Lemmas.AtomicQueueConc
set_option autoImplicit false

/- Property C02. -/
namespace Props
open Modm.AtomicQueue.Conc Spec.FifoTrace

/-- C02: every interleaving of one producer and one consumer is free of out-of-bounds accesses and its
events form a trace of a bounded FIFO channel. -/
theorem C02_queue_interleaving_safe {α : Type} (N : Nat) (hN : N ≤ 65535) (mem : List α)
    (hmem : mem.length = N + 1) (schedule : List (Act α)) :
    ∃ s tr, run N (init mem) schedule = some (s, tr) ∧ Accepts N [] false tr := by
  obtain ⟨s, tr, _, h, _, ha, _⟩ := run_inv schedule (inv_init mem hN hmem)
  exact ⟨s, tr, h, ha⟩

/-- C02: in every interleaving the values taken out are a prefix of the values pushed, in order. -/
theorem C02_queue_takes_prefix_of_pushes {α : Type} (N : Nat) (hN : N ≤ 65535) (mem : List α)
    (hmem : mem.length = N + 1) (schedule : List (Act α)) (s : S α) (tr : List (Ev α))
    (hrun : run N (init mem) schedule = some (s, tr)) : takes tr <+: pushes tr := by
  obtain ⟨s', tr', h, ha⟩ := C02_queue_interleaving_safe N hN mem hmem schedule
  rw [hrun] at h
  obtain ⟨rfl, rfl⟩ := by simpa using h
  simpa [pending] using accepts_prefix tr [] false (by simp) ha

/-- C02 (nothing is lost): after any schedule that leaves the consumer idle with an element pushed but not
yet taken, a poll that is not interfered with takes exactly the oldest such element, whatever the
producer was in the middle of. -/
theorem C02_queue_no_loss {α : Type} (N : Nat) (hN : N ≤ 65535) (mem : List α)
    (hmem : mem.length = N + 1) (schedule : List (Act α)) (s : S α) (tr : List (Ev α))
    (hrun : run N (init mem) schedule = some (s, tr)) (hc : s.c = .idle) (v : α) (rest : List α)
    (hmissing : pushes tr = takes tr ++ v :: rest) :
    ∃ s', run N s [.startPoll, .cons, .cons, .cons, .cons, .cons] = some (s', [.took v, .freed]) ∧
      s'.c = .idle ∧ s'.p = s.p := by
  obtain ⟨s1, tr1, l, h, hi, ha, _, hl⟩ := run_inv schedule (inv_init mem hN hmem)
  rw [hrun] at h
  obtain ⟨rfl, rfl⟩ := by simpa using h
  obtain ⟨q, p, c⟩ := s
  simp only at hc; subst hc
  have hl' : l = v :: rest := by
    simp [pending, held, hmissing, init] at hl; exact hl
  subst hl'
  have hg : q.buf[q.tail]? = some v := Modm.AtomicQueue.rep_get hi.rep
  have hne : ¬ q.head = q.tail := by
    intro he; have := hi.rep.hd; have := hi.rep.sz; have := hi.rep.tl
    simp only at *
    rw [he] at *
    unfold Modm.AtomicQueue.wrap at *
    simp only [List.length_cons] at *
    split at * <;> omega
  exact ⟨⟨{ q with tail := Modm.AtomicQueue.next N q.tail }, p, .idle⟩, by simp [run, step, hne, hg], rfl, rfl⟩

/-- C02 (producer side): after any schedule that leaves the producer idle while fewer than `N` elements are
stored (pushed but not yet freed by `pop`), an uninterrupted `push` succeeds. -/
theorem C02_queue_push_succeeds {α : Type} (N : Nat) (hN : N ≤ 65535) (mem : List α)
    (hmem : mem.length = N + 1) (schedule : List (Act α)) (s : S α) (tr : List (Ev α))
    (hrun : run N (init mem) schedule = some (s, tr)) (hp : s.p = .idle) (hc : s.c = .idle) (x : α)
    (hroom : (pushes tr).length < (takes tr).length + N) :
    ∃ s', run N s [.startPush x, .prod, .prod, .prod] = some (s', [.pushed x]) ∧
      s'.p = .idle ∧ s'.c = s.c := by
  obtain ⟨s1, tr1, l, h, hi, ha, _, hl⟩ := run_inv schedule (inv_init mem hN hmem)
  rw [hrun] at h
  obtain ⟨rfl, rfl⟩ := by simpa using h
  obtain ⟨q, p, c⟩ := s
  simp only at hp hc; subst hp hc
  have hll : l.length < N := by
    have := congrArg List.length hl
    simp [pending, held, init] at this; omega
  have hne : ¬ Modm.AtomicQueue.next N q.head = q.tail := fun he => by
    have := (Modm.AtomicQueue.full_iff hi.rep).1 he; omega
  have hh : q.head < q.buf.length := by
    have := hi.rep.len; have := Modm.AtomicQueue.head_le hi.rep; simp only at *; omega
  exact ⟨⟨{ q with buf := q.buf.set q.head x, head := Modm.AtomicQueue.next N q.head }, .idle, .idle⟩,
    by simp [run, step, hne, hh], rfl, rfl⟩

/-- C02 (no torn slot): in no reachable state is the producer about to write the very slot the consumer is
about to read, so the two (non-atomic) element copies never overlap. -/
theorem C02_queue_no_slot_conflict {α : Type} (N : Nat) (hN : N ≤ 65535) (mem : List α)
    (hmem : mem.length = N + 1) (schedule : List (Act α)) (s : S α) (tr : List (Ev α))
    (hrun : run N (init mem) schedule = some (s, tr)) (x : α) (tmp t : Nat)
    (hp : s.p = .write x tmp) (hc : s.c = .haveTail t) : t ≠ s.q.head := by
  obtain ⟨s1, tr1, l, h, hi, ha, _, hl⟩ := run_inv schedule (inv_init mem hN hmem)
  rw [hrun] at h
  obtain ⟨rfl, rfl⟩ := by simpa using h
  have hP := hi.pi; have hC := hi.ci
  rw [hp] at hP; rw [hc] at hC
  obtain ⟨h1, h2⟩ := hP
  obtain ⟨h3, rfl⟩ := hC
  have h4 := hi.rep.hd; have := hi.rep.tl
  have : 0 < l.length := List.length_pos_iff.2 h3
  intro he
  rw [h4] at he
  unfold Modm.AtomicQueue.wrap at he
  split at he <;> omega

-- the hypotheses of the last theorem are reachable
example : (run 2 (init [0, 0, 0])
    [.startPush 7, .prod, .prod, .prod, .startPush 8, .prod, .startPoll, .cons, .cons]).map
    (fun r => (r.1.p, r.1.c)) = some (.write 8 2, .haveTail 0) := by decide +kernel

-- a real interleaving: the consumer empties the queue while the producer is inside its second push
example : (run 2 (init [0, 0, 0])
    [.startPush 7, .prod, .prod, .startPoll, .prod, .startPush 8, .cons, .startPoll, .prod, .cons, .prod,
     .cons, .cons, .prod, .cons, .cons]).map (fun r => (takes r.2, pushes r.2)) = some ([7], [7, 8]) := by
  decide +kernel
end Props
