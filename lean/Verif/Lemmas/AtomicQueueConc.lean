import Verif.Lemmas.AtomicQueue
import Verif.Spec.FifoTrace

namespace Modm.AtomicQueue.Conc
open Modm.AtomicQueue Spec.FifoTrace
variable {α : Type}

/-- what the producer's program counter guarantees -/
def PInv (N : Nat) (q : Q α) (l : List α) : Prod α → Prop
  | .idle => True
  | .haveTmp _ tmp => tmp = next N q.head
  | .write _ tmp => tmp = next N q.head ∧ l.length < N
  | .publish x tmp => tmp = next N q.head ∧ l.length < N ∧ q.buf[q.head]? = some x

/-- what the consumer's program counter guarantees -/
def CInv (N : Nat) (q : Q α) (l : List α) : Cons α → Prop
  | .idle => True
  | .haveHead h => ∃ j, j ≤ l.length ∧ h = wrap (N+1) (q.tail + j)
  | .nonEmpty => l ≠ []
  | .haveTail t => l ≠ [] ∧ t = q.tail
  | .holding => l ≠ []
  | .haveNext t => l ≠ [] ∧ t = next N q.tail

def held : Cons α → Bool
  | .holding | .haveNext _ => true
  | _ => false

/-- undelivered elements that have not been copied out yet -/
def pending (l : List α) (h : Bool) : List α := if h then l.tail else l

structure Inv (N : Nat) (s : S α) (l : List α) : Prop where
  rep : Rep N s.q l
  pi : PInv N s.q l s.p
  ci : CInv N s.q l s.c

theorem inv_init {N : Nat} (mem : List α) (hN : N ≤ 65535) (h : mem.length = N + 1) :
    Inv N (init mem) [] := ⟨rep_init mem hN h, trivial, trivial⟩

theorem step_inv {N : Nat} {s : S α} {l : List α} (a : Act α) (h : Inv N s l) :
    ∃ s' e l', step N s a = some (s', e) ∧ Inv N s' l' ∧
      (∀ tr, Accepts N l' (held s'.c) tr → Accepts N l (held s.c) (e ++ tr)) ∧
      takes e ++ pending l' (held s'.c) = pending l (held s.c) ++ pushes e := by
  obtain ⟨q, p, c⟩ := s
  obtain ⟨hr, hp, hc⟩ := h
  simp only at hr hp hc
  cases a with
  | startPush x =>
    cases p
    case idle => exact ⟨_, _, l, rfl, ⟨hr, rfl, hc⟩, fun tr h => h, by simp [takes, pushes, pending, held]⟩
    all_goals exact ⟨_, _, l, rfl, ⟨hr, hp, hc⟩, fun tr h => h, by simp [takes, pushes, pending, held]⟩
  | startPoll =>
    cases c
    case idle => exact ⟨_, _, l, rfl, ⟨hr, hp, ⟨l.length, Nat.le_refl _, hr.hd⟩⟩, fun tr h => h, by simp [takes, pushes, pending, held]⟩
    all_goals exact ⟨_, _, l, rfl, ⟨hr, hp, hc⟩, fun tr h => h, by simp [takes, pushes, pending, held]⟩
  | prod =>
    cases p with
    | idle => exact ⟨_, _, l, rfl, ⟨hr, hp, hc⟩, fun tr h => h, by simp [takes, pushes, pending, held]⟩
    | haveTmp x tmp =>
      simp only [PInv] at hp
      by_cases ht : tmp = q.tail
      · refine ⟨⟨q, .idle, c⟩, [.refused x], l, by simp [step, ht], ⟨hr, trivial, hc⟩, ?_, by simp [takes, pushes]⟩
        intro tr h
        have : l.length = N := (full_iff hr).1 (by rw [← hp, ht])
        exact ⟨this, h⟩
      · refine ⟨⟨q, .write x tmp, c⟩, [], l, by simp [step, ht], ⟨hr, ?_, hc⟩, fun tr h => h, by simp [takes, pushes, pending, held]⟩
        refine ⟨hp, ?_⟩
        have := mt (full_iff hr).2 (by rw [← hp]; exact ht)
        have := hr.sz
        omega
    | write x tmp =>
      obtain ⟨h1, h2⟩ := hp
      have hh : q.head < q.buf.length := by rw [hr.len]; have := head_le hr; omega
      have hrep : Rep N { q with buf := q.buf.set q.head x } l := by
        refine ⟨hr.hN, by simpa using hr.len, hr.hd, hr.tl, hr.sz, ?_⟩
        intro k hk
        have hw : wrap (N+1) (q.tail + k) ≠ q.head := by
          have h1 := hr.hd; have := hr.tl
          rw [h1]; unfold wrap; repeat' split
          all_goals omega
        show (q.buf.set q.head x)[wrap (N+1) (q.tail + k)]? = _
        rw [List.getElem?_set_ne (Ne.symm hw), hr.el k hk]
      refine ⟨⟨{ q with buf := q.buf.set q.head x }, .publish x tmp, c⟩, [], l,
        by simp [step, hh], ⟨hrep, ⟨h1, h2, ?_⟩, ?_⟩, fun tr h => h, by simp [takes, pushes, pending, held]⟩
      · show (q.buf.set q.head x)[q.head]? = _
        rw [List.getElem?_set_self hh]
      · cases c <;> exact hc
    | publish x tmp =>
      obtain ⟨h1, h2, h3⟩ := hp
      have hrep : Rep N { q with head := tmp } (l ++ [x]) := by
        have hh := head_le hr
        refine ⟨hr.hN, hr.len, ?_, hr.tl, by simp; omega, ?_⟩
        · have hd := hr.hd; have := hr.tl
          simp only [List.length_append, List.length_singleton]
          rw [h1, next_eq hr.hN hh]
          unfold wrap at *
          split at hd <;> repeat' split
          all_goals omega
        · intro k hk
          simp only [List.length_append, List.length_singleton] at hk
          by_cases hkl : k = l.length
          · subst hkl
            show q.buf[wrap (N+1) (q.tail + l.length)]? = _
            rw [← hr.hd, h3]; simp
          · have hk' : k < l.length := by omega
            show q.buf[wrap (N+1) (q.tail + k)]? = _
            rw [hr.el k hk', List.getElem?_append_left hk']
      refine ⟨⟨{ q with head := tmp }, .idle, c⟩, [.pushed x], l ++ [x], rfl, ⟨hrep, trivial, ?_⟩, ?_, ?_⟩
      · cases c with
        | idle => trivial
        | haveHead h => obtain ⟨j, hj, e⟩ := hc; exact ⟨j, by simp; omega, e⟩
        | nonEmpty => simp [CInv]
        | haveTail t => exact ⟨by simp, hc.2⟩
        | holding => simp [CInv]
        | haveNext t => exact ⟨by simp, hc.2⟩
      · intro tr h; exact ⟨h2, h⟩
      · have hn : held c = true → l ≠ [] := by
          cases c <;> simp [held] <;> first | exact hc | exact hc.1
        simp only [takes, pushes, pending, List.nil_append]
        split
        · rename_i ht; cases l with
          | nil => exact absurd rfl (hn ht)
          | cons => simp
        · rfl
  | cons =>
    cases c with
    | idle => exact ⟨_, _, l, rfl, ⟨hr, hp, hc⟩, fun tr h => h, by simp [takes, pushes, pending, held]⟩
    | haveHead h =>
      by_cases ht : h = q.tail
      · exact ⟨⟨q, p, .idle⟩, [], l, by simp [step, ht], ⟨hr, hp, trivial⟩, fun tr h => h, by simp [takes, pushes, pending, held]⟩
      · refine ⟨⟨q, p, .nonEmpty⟩, [], l, by simp [step, ht], ⟨hr, hp, ?_⟩, fun tr h => h, by simp [takes, pushes, pending, held]⟩
        intro hl
        obtain ⟨j, hj, e⟩ := hc
        subst hl
        simp at hj; subst hj
        apply ht; rw [e]
        have := hr.tl
        unfold wrap; split <;> omega
    | nonEmpty => exact ⟨_, _, l, rfl, ⟨hr, hp, ⟨hc, rfl⟩⟩, fun tr h => h, by simp [takes, pushes, pending, held]⟩
    | haveTail t =>
      obtain ⟨hl, rfl⟩ := hc
      cases l with
      | nil => exact absurd rfl hl
      | cons v l =>
        have hg : q.buf[q.tail]? = some v := rep_get hr
        refine ⟨⟨q, p, .holding⟩, [.took v], v :: l, by simp [step, hg], ⟨hr, hp, hl⟩, ?_, by simp [takes, pushes, pending, held]⟩
        intro tr h
        exact ⟨rfl, rfl, h⟩
    | holding => exact ⟨_, _, l, rfl, ⟨hr, hp, ⟨hc, rfl⟩⟩, fun tr h => h, by simp [takes, pushes, pending, held]⟩
    | haveNext t =>
      obtain ⟨hl, rfl⟩ := hc
      cases l with
      | nil => exact absurd rfl hl
      | cons v l =>
        refine ⟨⟨{ q with tail := next N q.tail }, p, .idle⟩, [.freed], l, rfl, ⟨rep_pop hr, ?_, trivial⟩, ?_,
          by simp [takes, pushes, pending, held]⟩
        · cases p with
          | idle => trivial
          | haveTmp x tmp => exact hp
          | write x tmp => exact ⟨hp.1, by have := hp.2; simp at this; omega⟩
          | publish x tmp => exact ⟨hp.1, by have := hp.2.1; simp at this; omega, hp.2.2⟩
        · intro tr h; exact ⟨rfl, h⟩

theorem takes_append (a b : List (Ev α)) : takes (a ++ b) = takes a ++ takes b := by
  induction a with
  | nil => rfl
  | cons e a ih => cases e <;> simp [takes, ih]

theorem pushes_append (a b : List (Ev α)) : pushes (a ++ b) = pushes a ++ pushes b := by
  induction a with
  | nil => rfl
  | cons e a ih => cases e <;> simp [pushes, ih]

theorem run_inv {N : Nat} (as : List (Act α)) : ∀ {s : S α} {l : List α}, Inv N s l →
    ∃ s' tr l', run N s as = some (s', tr) ∧ Inv N s' l' ∧ Accepts N l (held s.c) tr ∧
      (∀ tr', Accepts N l' (held s'.c) tr' → Accepts N l (held s.c) (tr ++ tr')) ∧
      takes tr ++ pending l' (held s'.c) = pending l (held s.c) ++ pushes tr := by
  induction as with
  | nil => intro s l h; exact ⟨s, [], l, rfl, h, trivial, fun _ h => h, by simp [takes, pushes]⟩
  | cons a as ih =>
    intro s l h
    obtain ⟨s1, e, l1, h1, i1, c1, t1⟩ := step_inv a h
    obtain ⟨s2, tr, l2, h2, i2, c2, c3, t2⟩ := ih i1
    refine ⟨s2, e ++ tr, l2, by simp [run, h1, h2], i2, c1 tr c2, ?_, ?_⟩
    · intro tr' h
      rw [List.append_assoc]
      exact c1 _ (c3 _ h)
    · rw [takes_append, pushes_append, List.append_assoc, t2, ← List.append_assoc, t1, List.append_assoc]

/-- an accepted trace takes out a prefix of what was stored or pushed -/
theorem accepts_prefix {N : Nat} (tr : List (Ev α)) : ∀ (l : List α) (h : Bool), (h = true → l ≠ []) →
    Accepts N l h tr → takes tr <+: pending l h ++ pushes tr := by
  induction tr with
  | nil => intro l h _ _; simp [takes]
  | cons e tr ih =>
    intro l h hn ha
    cases e with
    | pushed x =>
      simp only [Accepts] at ha
      have := ih (l ++ [x]) h (by simp) ha.2
      simp only [takes, pushes]
      have hp : pending (l ++ [x]) h = pending l h ++ [x] := by
        unfold pending; split
        · rename_i ht; cases l with
          | nil => exact absurd rfl (hn ht)
          | cons => simp
        · rfl
      rw [hp] at this; simpa using this
    | refused x => simp only [Accepts] at ha; simpa [takes, pushes] using ih l h hn ha.2
    | took v =>
      cases l with
      | nil => simp [Accepts] at ha
      | cons w l =>
        simp only [Accepts] at ha
        obtain ⟨rfl, rfl, ha⟩ := ha
        have := ih _ true (by simp) ha
        simp only [pending, if_true, List.tail_cons] at this
        simp only [takes, pushes, pending, Bool.false_eq_true, if_false, List.cons_append]
        exact List.cons_prefix_cons.2 ⟨rfl, this⟩
    | freed =>
      cases l with
      | nil => simp [Accepts] at ha
      | cons w l =>
        simp only [Accepts] at ha
        obtain ⟨rfl, ha⟩ := ha
        have := ih l false (by simp) ha
        simpa [takes, pushes, pending] using this

end Modm.AtomicQueue.Conc
