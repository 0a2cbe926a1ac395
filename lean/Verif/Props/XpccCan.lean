import Verif.Spec.XpccCan
import Verif.Props.BitOps
import Mathlib.Data.List.TakeDrop

set_option autoImplicit false

/-!
C62: the CAN identifier carries the whole header.
C63: a long packet arrives whatever the order of its fragments and whatever is between them.
C64: received frames never make the connector leave its buffers (partial).
C65: two connectors on a bus that loses nothing.
-/

namespace Props.XpccCan

open Modm.XpccCan Spec.XpccCan

/-! ## C62 -/

/-- The five flag bits. -/
def flags (k : Kind) (ack fr : Bool) : BitVec 32 :=
  setLowest fr (((setLowest ack (kindBits k <<< 1)) <<< 1) <<< 1)

def pack (f : BitVec 32) (d s p : Byte) : BitVec 32 :=
  ((((f <<< 8) ||| d.setWidth 32) <<< 8 ||| s.setWidth 32) <<< 8) ||| p.setWidth 32

theorem toIdentifier_eq (h : Header) (fr : Bool) :
    toIdentifier h fr = pack (flags h.kind h.ack fr) h.destination h.source h.packet := rfl

theorem byteOf_pack (f : BitVec 32) (d s p : Byte) :
    byteOf (pack f d s p) 0 = p ∧ byteOf (pack f d s p) 1 = s ∧ byteOf (pack f d s p) 2 = d ∧
      byteOf (pack f d s p) 3 = f.setWidth 8 := by
  refine ⟨?_, ?_, ?_, ?_⟩ <;> apply BitVec.eq_of_getLsbD_eq <;> intro i hi <;>
    interval_cases i <;> simp [byteOf, pack]

theorem flags_ok (k : Kind) (ack fr : Bool) :
    kindOf ((flags k ack fr).setWidth 8) = k ∧
    decide ((flags k ack fr).setWidth 8 &&& (0x04 : Byte) ≠ 0) = ack ∧
    decide ((flags k ack fr).setWidth 8 &&& (0x01 : Byte) ≠ 0) = fr := by
  cases k <;> cases ack <;> cases fr <;> decide

/-- The receiver gets back the header and the kind of frame that the sender put in. -/
theorem C62_round_trip (h : Header) (fragmented : Bool) :
    toHeader (toIdentifier h fragmented) = h ∧
      isFragment (toIdentifier h fragmented) = fragmented := by
  obtain ⟨b0, b1, b2, b3⟩ :=
    byteOf_pack (flags h.kind h.ack fragmented) h.destination h.source h.packet
  obtain ⟨f1, f2, f3⟩ := flags_ok h.kind h.ack fragmented
  constructor
  · rw [toIdentifier_eq, toHeader, b0, b1, b2, b3, f1, f2]
  · rw [toIdentifier_eq, isFragment, b3, f3]

/-- The identifiers are valid extended identifiers (29 bits). -/
theorem C62_range (h : Header) (fragmented : Bool) :
    (toIdentifier h fragmented).toNat < 2 ^ 29 := by
  apply Nat.lt_pow_two_of_testBit
  intro i hi
  rw [toIdentifier_eq, ← BitVec.getLsbD]
  by_cases h32 : i < 32
  · have hb : ∀ j, 5 ≤ j → j < 8 → (flags h.kind h.ack fragmented).getLsbD j = false := by
      intro j h1 h2
      cases h.kind <;> cases h.ack <;> cases fragmented <;> interval_cases j <;> decide
    have h5 := hb 5 (by omega) (by omega)
    have h6 := hb 6 (by omega) (by omega)
    have h7 := hb 7 (by omega) (by omega)
    interval_cases i <;> simp_all [pack]
  · exact BitVec.getLsbD_of_ge _ _ (by omega)

theorem mask_byte (v : BitVec 32) (x : Byte) (k : Nat) (hk : k < 3) :
    v &&& (0xff : BitVec 32) <<< (8 * k) = (x.setWidth 32 : BitVec 32) <<< (8 * k) ↔
      byteOf v k = x := by
  constructor
  · intro h
    apply BitVec.eq_of_getLsbD_eq
    intro i hi
    have := congrArg (fun w => BitVec.getLsbD w (8 * k + i)) h
    interval_cases k <;> interval_cases i <;> simpa [byteOf] using this
  · intro h
    subst h
    apply BitVec.eq_of_getLsbD_eq
    intro i hi
    interval_cases k <;> interval_cases i <;> simp [byteOf]

theorem mask_event (v : BitVec 32) :
    v &&& ((0xff : BitVec 32) <<< 16 ||| (0x18 : BitVec 32) <<< 24) = 0 ↔
      byteOf v 3 &&& 0x18 = 0 ∧ byteOf v 2 = 0 := by
  constructor
  · intro h
    constructor
    · apply BitVec.eq_of_getLsbD_eq
      intro i hi
      have := congrArg (fun w => BitVec.getLsbD w (24 + i)) h
      interval_cases i <;> simp [byteOf] at this ⊢ <;> exact this
    · apply BitVec.eq_of_getLsbD_eq
      intro i hi
      have := congrArg (fun w => BitVec.getLsbD w (16 + i)) h
      interval_cases i <;> simp [byteOf] at this ⊢ <;> exact this
  · rintro ⟨h1, h2⟩
    apply BitVec.eq_of_getLsbD_eq
    intro i hi
    have q1 := fun j => congrArg (fun w => BitVec.getLsbD w j) h1
    have q2 := fun j => congrArg (fun w => BitVec.getLsbD w j) h2
    have q3 := q1 (i - 24)
    have q4 := q2 (i - 16)
    interval_cases i <;> simp [byteOf] at q3 q4 ⊢ <;> assumption

/-- The filters of connector.hpp:24-41 do what their names say: destination, source, packet
identifier, and events (requests to destination 0). -/
theorem C62_filters (h : Header) (fragmented : Bool) (x : Byte) :
    (toIdentifier h fragmented &&& (0xff : BitVec 32) <<< 16 = (x.setWidth 32 : BitVec 32) <<< 16 ↔
      h.destination = x) ∧
    (toIdentifier h fragmented &&& (0xff : BitVec 32) <<< 8 = (x.setWidth 32 : BitVec 32) <<< 8 ↔
      h.source = x) ∧
    (toIdentifier h fragmented &&& (0xff : BitVec 32) = (x.setWidth 32 : BitVec 32) ↔
      h.packet = x) ∧
    (toIdentifier h fragmented &&& ((0xff : BitVec 32) <<< 16 ||| (0x18 : BitVec 32) <<< 24) = 0 ↔
      h.kind = .request ∧ h.destination = 0) := by
  obtain ⟨b0, b1, b2, b3⟩ :=
    byteOf_pack (flags h.kind h.ack fragmented) h.destination h.source h.packet
  rw [toIdentifier_eq]
  refine ⟨?_, ?_, ?_, ?_⟩
  · have := mask_byte (pack (flags h.kind h.ack fragmented) h.destination h.source h.packet) x 2
      (by omega)
    rwa [b2] at this
  · have := mask_byte (pack (flags h.kind h.ack fragmented) h.destination h.source h.packet) x 1
      (by omega)
    rwa [b1] at this
  · have := mask_byte (pack (flags h.kind h.ack fragmented) h.destination h.source h.packet) x 0
      (by omega)
    rw [b0] at this
    simpa using this
  · rw [mask_event, b2, b3]
    refine and_congr_left fun _ => ?_
    cases h.kind <;> cases h.ack <;> cases fragmented <;> decide

/-! ## Storing a fragment -/

theorem mark_facts (m : Byte) (k : Nat) (hk : k < 8) (hm : m.getLsbD k = false) :
    Modm.BitOps.bitCount8 (mark m k) = Modm.BitOps.bitCount8 m + 1 ∧
      ∀ j, j < 8 → (mark m k).getLsbD j = (m.getLsbD j || decide (j = k)) := by
  interval_cases k <;> revert m <;> decide +kernel

def Keys (rx : Rx) : Prop :=
  rx.pending.Pairwise fun p q => ¬ (p.header = q.header ∧ p.counter = q.counter)

def slot (rx : Rx) (h : Header) (c : Byte) : Option Pending := rx.pending.find? (·.isFor h c)

theorem isFor_iff (h : Header) (c : Byte) (p : Pending) :
    p.isFor h c = true ↔ p.header = h ∧ p.counter = c := by
  simp [Pending.isFor]

theorem slot_mem (rx : Rx) (h : Header) (c : Byte) (p : Pending) (e : slot rx h c = some p) :
    p ∈ rx.pending ∧ p.header = h ∧ p.counter = c :=
  ⟨List.mem_of_find?_eq_some e, (isFor_iff _ _ _).mp (List.find?_some e)⟩

theorem slot_none (rx : Rx) (h : Header) (c : Byte) :
    slot rx h c = none ↔ ∀ p ∈ rx.pending, ¬ (p.header = h ∧ p.counter = c) := by
  unfold slot
  rw [List.find?_eq_none]
  simp only [isFor_iff]

theorem mem_slot (rx : Rx) (hk : Keys rx) (p : Pending) (hp : p ∈ rx.pending) :
    slot rx p.header p.counter = some p := by
  obtain ⟨pend, recd⟩ := rx
  unfold slot Keys at *
  simp only at hk hp ⊢
  induction pend with
  | nil => simp at hp
  | cons q l ih =>
    rw [List.pairwise_cons] at hk
    rcases List.mem_cons.mp hp with rfl | hp
    · rw [List.find?_cons_of_pos]
      exact (isFor_iff _ _ _).mpr ⟨rfl, rfl⟩
    · rw [List.find?_cons_of_neg]
      · exact ih hk.2 hp
      · rw [isFor_iff]
        rintro ⟨e1, e2⟩
        exact hk.1 p hp ⟨e1, e2⟩

theorem span_cases (h : Header) (c : Byte) (l : List Pending) :
    ((l.span fun p => !p.isFor h c).2 = [] ∧ l.find? (·.isFor h c) = none) ∨
    ∃ b p a, l = b ++ p :: a ∧ (l.span fun p => !p.isFor h c) = (b, p :: a) ∧
      p.isFor h c = true ∧ l.find? (·.isFor h c) = some p ∧ ∀ q ∈ b, ¬ q.isFor h c = true := by
  simp only [List.span_eq_takeWhile_dropWhile]
  induction l with
  | nil => left; simp
  | cons q l ih =>
    by_cases hq : q.isFor h c = true
    · right
      exact ⟨[], q, l, rfl, by simp [hq], hq, by simp [hq], by simp⟩
    · rcases ih with ⟨h1, h2⟩ | ⟨b, p, a, h1, h2, h3, h4, h5⟩
      · left
        simp only [Bool.not_eq_true] at hq
        simp [hq]
        simp at h1 h2
        exact ⟨h1, h2⟩
      · right
        refine ⟨q :: b, p, a, by rw [h1]; rfl, ?_, h3, by simp [hq, h4], ?_⟩
        · simp only [Bool.not_eq_true] at hq
          simp only [Prod.mk.injEq] at h2
          simp [hq, h2.1, h2.2]
        · intro r hr
          rcases List.mem_cons.mp hr with rfl | hr
          · exact hq
          · exact h5 r hr

/-- The item that a fragment is stored in. -/
def itemFor (rx : Rx) (h : Header) (c : Byte) (size : Nat) : Pending :=
  (slot rx h c).getD ⟨h, c, List.replicate size none, 0⟩

theorem store_ok (rx : Rx) (hk : Keys rx) (h : Header) (c : Byte) (index size : Nat)
    (bytes : List Byte) (payload : List (Option Byte))
    (hc : copy (itemFor rx h c size).payload (index * 6) bytes = some payload) :
    ∃ rx', store rx h c index size bytes = some rx' ∧ Keys rx' ∧
      (∀ h' c', ¬ (h' = h ∧ c' = c) → slot rx' h' c' = slot rx h' c') ∧
      if Modm.BitOps.bitCount8 (mark (itemFor rx h c size).fragments index) =
          numberOfFragments size then
        slot rx' h c = none ∧ rx'.received = rx.received ++ [⟨h, payload⟩]
      else slot rx' h c = some ⟨h, c, payload, mark (itemFor rx h c size).fragments index⟩ ∧
        rx'.received = rx.received := by
  obtain ⟨pend, recd⟩ := rx
  rcases span_cases h c pend with ⟨h1, h2⟩ | ⟨b, p, a, h1, h2, h3, h4, h5⟩
  · have hi : itemFor ⟨pend, recd⟩ h c size = ⟨h, c, List.replicate size none, 0⟩ := by
      rw [itemFor, slot, h2]; rfl
    rw [hi] at hc ⊢
    simp only at hc ⊢
    have hn := (slot_none ⟨pend, recd⟩ h c).mp h2
    simp only [store, h1, hc, Option.map_some, List.nil_append]
    split
    · exact ⟨_, rfl, hk, fun _ _ _ => rfl, h2, rfl⟩
    · refine ⟨_, rfl, ?_, ?_, ?_, rfl⟩
      · refine List.pairwise_cons.mpr ⟨?_, hk⟩
        rintro q hq ⟨e1, e2⟩
        exact hn q hq ⟨e1.symm, e2.symm⟩
      · intro h' c' hne
        unfold slot
        rw [List.find?_cons_of_neg]
        rw [isFor_iff]
        rintro ⟨e1, e2⟩
        exact hne ⟨e1.symm, e2.symm⟩
      · unfold slot
        rw [List.find?_cons_of_pos]
        exact (isFor_iff _ _ _).mpr ⟨rfl, rfl⟩
  · have hi : itemFor ⟨pend, recd⟩ h c size = p := by
      rw [itemFor, slot, h4]; rfl
    rw [hi] at hc ⊢
    obtain ⟨e1, e2⟩ := (isFor_iff _ _ _).mp h3
    simp only [store, h2, hc, Option.map_some]
    subst h1
    unfold Keys at hk
    simp only [List.pairwise_append, List.pairwise_cons] at hk
    obtain ⟨k1, ⟨k2, k3⟩, k4⟩ := hk
    split
    · refine ⟨_, rfl, ?_, ?_, ?_, by rw [e1]⟩
      · exact List.pairwise_append.mpr ⟨k1, k3, fun x hx y hy =>
          k4 x hx y (List.mem_cons_of_mem _ hy)⟩
      · intro h' c' hne
        unfold slot
        simp only [List.find?_append]
        rw [List.find?_cons_of_neg]
        rw [isFor_iff, e1, e2]
        rintro ⟨f1, f2⟩
        exact hne ⟨f1.symm, f2.symm⟩
      · rw [slot_none]
        intro q hq
        rcases List.mem_append.mp hq with hq | hq
        · rw [← isFor_iff]; exact h5 q hq
        · rintro ⟨f1, f2⟩
          exact k2 q hq ⟨e1.trans f1.symm, e2.trans f2.symm⟩
    · refine ⟨_, rfl, ?_, ?_, ?_, rfl⟩
      · refine List.pairwise_append.mpr ⟨k1, List.pairwise_cons.mpr ⟨k2, k3⟩, ?_⟩
        intro x hx y hy
        rcases List.mem_cons.mp hy with rfl | hy
        · exact k4 x hx p (by simp)
        · exact k4 x hx y (by simp [hy])
      · intro h' c' hne
        unfold slot
        simp only [List.find?_append]
        rw [List.find?_cons_of_neg, List.find?_cons_of_neg]
        all_goals
          simp only [isFor_iff, e1, e2]
          rintro ⟨f1, f2⟩
          exact hne ⟨f1.symm, f2.symm⟩
      · unfold slot
        simp only [List.find?_append]
        rw [List.find?_eq_none.mpr h5, Option.none_or, List.find?_cons_of_pos]
        · obtain ⟨p1, p2, p3, p4⟩ := p
          simp only at e1 e2 ⊢
          rw [e1, e2]
        · exact (isFor_iff _ _ _).mpr ⟨e1, e2⟩

theorem copy_length (payload payload' : List (Option Byte)) (o : Nat) (bytes : List Byte)
    (h : copy payload o bytes = some payload') : payload'.length = payload.length := by
  unfold copy at h
  split at h
  · simp only [Option.some.injEq] at h
    subst h
    simp
    omega
  · simp at h

theorem numberOfFragments_eq (n : Nat) : numberOfFragments n = (n + 5) / 6 := by
  unfold numberOfFragments
  split <;> omega

theorem legal_some (data : List Byte) (index size : Nat) (h : legal data = some (index, size)) :
    index = (data.getD 0 0 &&& 0x0f).toNat ∧ size = (data.getD 1 0).toNat ∧ size ≤ 48 ∧
      index < (size + 5) / 6 ∧ index * 6 + (data.drop 2).length ≤ size := by
  unfold legal at h
  simp only [numberOfFragments_eq] at h
  split at h
  · simp at h
  · rename_i h0
    simp only [not_or, Nat.not_lt, Nat.not_le, ge_iff_le] at h0
    split at h
    · rename_i h1
      split at h
      · simp at h
      · rename_i h2
        simp only [Option.some.injEq, Prod.mk.injEq] at h
        obtain ⟨rfl, rfl⟩ := h
        refine ⟨rfl, rfl, by omega, by omega, ?_⟩
        rw [List.length_drop]
        omega
    · rename_i h1
      split at h
      · simp at h
      · simp only [Option.some.injEq, Prod.mk.injEq] at h
        obtain ⟨rfl, rfl⟩ := h
        refine ⟨rfl, rfl, by omega, by omega, ?_⟩
        rw [List.length_drop]
        omega

theorem concerns_iff (h : Header) (c : Byte) (f : Frame) :
    concerns h c f = true ↔ isFragment f.identifier = true ∧ toHeader f.identifier = h ∧
      f.data.getD 0 0 &&& 0xf0 = c := by
  simp [concerns, and_assoc]

/-- What a frame can change. -/
theorem receive_effect (rx : Rx) (hk : Keys rx) (f : Frame) (hf : Fits rx [f]) :
    ∃ rx', receive rx f = some rx' ∧ Keys rx' ∧
      (∀ h c, ¬ concerns h c f = true → slot rx' h c = slot rx h c) ∧
      ∀ p ∈ rx'.pending, p ∈ rx.pending ∨ (concerns p.header p.counter f = true ∧
        (legal f.data).isSome ∧ p.payload.length = (f.data.getD 1 0).toNat) := by
  unfold receive
  by_cases hfr : isFragment f.identifier = true
  · rw [if_pos hfr]
    cases hl : legal f.data with
    | none => exact ⟨_, rfl, hk, fun _ _ _ => rfl, fun p hp => Or.inl hp⟩
    | some r =>
      obtain ⟨index, size⟩ := r
      obtain ⟨h1, h2, h3, h4, h5⟩ := legal_some _ _ _ hl
      simp only
      obtain ⟨h, hh⟩ : ∃ h, h = toHeader f.identifier := ⟨_, rfl⟩
      obtain ⟨c, hc⟩ : ∃ c, c = f.data.getD 0 0 &&& 0xf0 := ⟨_, rfl⟩
      rw [← hh, ← hc]
      have hcon : concerns h c f = true := (concerns_iff _ _ _).mpr ⟨hfr, hh.symm, hc.symm⟩
      have hlen : (itemFor rx h c size).payload.length = size := by
        unfold itemFor
        cases hs : slot rx h c with
        | none => simp
        | some p =>
          obtain ⟨m1, m2, m3⟩ := slot_mem _ _ _ _ hs
          have := hf p m1 f (by simp) (by rw [m2, m3]; exact hcon) (by rw [hl]; rfl)
          simp only [Option.getD_some]
          omega
      obtain ⟨payload, hp⟩ : ∃ payload,
          copy (itemFor rx h c size).payload (index * 6) (f.data.drop 2) = some payload := by
        unfold copy
        rw [if_pos (by omega)]
        exact ⟨_, rfl⟩
      obtain ⟨rx', e, hk', hother, hcase⟩ := store_ok rx hk h c index size _ payload hp
      refine ⟨rx', e, hk', ?_, ?_⟩
      · intro h' c' hne
        apply hother
        rintro ⟨rfl, rfl⟩
        exact hne hcon
      · intro p hpm
        have hs := mem_slot rx' hk' p hpm
        by_cases hkey : p.header = h ∧ p.counter = c
        · right
          rw [hkey.1, hkey.2] at hs ⊢
          split at hcase
          · rw [hcase.1] at hs; simp at hs
          · rw [hcase.1, Option.some.injEq] at hs
            refine ⟨hcon, by simp, ?_⟩
            rw [← hs, ← h2]
            simp only
            rw [copy_length _ _ _ _ hp, hlen]
        · left
          rw [hother _ _ hkey] at hs
          exact (slot_mem _ _ _ _ hs).1
  · rw [if_neg hfr]
    exact ⟨_, rfl, hk, fun _ _ _ => rfl, fun p hp => Or.inl hp⟩

theorem receiveAll_append (rx : Rx) (a b : List Frame) :
    receiveAll rx (a ++ b) = (receiveAll rx a).bind fun rx => receiveAll rx b := by
  induction a generalizing rx with
  | nil => rfl
  | cons f a ih =>
    simp only [List.cons_append, receiveAll]
    cases receive rx f with
    | none => rfl
    | some rx => exact ih rx

theorem receiveAll_one (rx : Rx) (f : Frame) : receiveAll rx [f] = receive rx f := by
  simp only [receiveAll]
  cases receive rx f <;> rfl

theorem receiveAll_safe (pre post : List Frame) : ∀ (rx : Rx), Keys rx → Fits rx (pre ++ post) →
    Consistent (pre ++ post) →
    ∃ rx', receiveAll rx pre = some rx' ∧ Keys rx' ∧ Fits rx' post ∧ Consistent post := by
  induction pre with
  | nil => intro rx hk hf hc; exact ⟨rx, rfl, hk, hf, hc⟩
  | cons f pre ih =>
    intro rx hk hf hc
    obtain ⟨rx1, e, hk1, -, hp⟩ := receive_effect rx hk f
      (fun p hp g hg => hf p hp g (by simp at hg; simp [hg]))
    have hf1 : Fits rx1 (pre ++ post) := by
      intro p hpm g hg hcg hlg
      rcases hp p hpm with h | ⟨h1, h2, h3⟩
      · exact hf p h g (by simp at hg ⊢; exact Or.inr hg) hcg hlg
      · rw [h3, hc f (by simp) g (by simp at hg ⊢; exact Or.inr hg) _ _ h1 hcg h2 hlg]
    obtain ⟨rx', e', r⟩ := ih rx1 hk1 hf1 fun a ha b hb =>
      hc a (by simp at ha ⊢; exact Or.inr ha) b (by simp at hb ⊢; exact Or.inr hb)
    refine ⟨rx', ?_, r⟩
    rw [receiveAll, e]
    exact e'

/-- Frames never make the receiver write outside of its payloads, as long as all the fragments with
the same header and counter announce the same size. -/
theorem C64_memory_safe_partial (fs : List Frame) (hc : Consistent fs) :
    ∃ rx, receiveAll ⟨[], []⟩ fs = some rx := by
  obtain ⟨rx, e, -⟩ := receiveAll_safe fs [] ⟨[], []⟩ List.Pairwise.nil
    (fun p hp => by simp at hp) (by simpa using hc)
  exact ⟨rx, e⟩

/-- Without that they do: two frames with the same header and counter, the first one announces
nine bytes, the second one is the last fragment of 48 bytes and is stored 42 bytes behind the
start of the buffer of nine bytes. -/
theorem C64_memory_safe_counterexample :
    receiveAll ⟨[], []⟩
      [⟨toIdentifier ⟨.request, false, 1, 2, 3⟩ true, [0x00, 9, 1, 2, 3, 4, 5, 6]⟩,
       ⟨toIdentifier ⟨.request, false, 1, 2, 3⟩ true, [0x07, 48, 1, 2, 3, 4, 5, 6]⟩] = none := by
  decide +kernel

/-! ## C63 -/

theorem nibbles (c : Byte) (hc : c &&& 0x0f = 0) (k : Nat) (hk : k < 8) :
    ((BitVec.ofNat 8 k ||| c) &&& 0x0f).toNat = k ∧ (BitVec.ofNat 8 k ||| c) &&& 0xf0 = c := by
  interval_cases k <;> revert c <;> decide +kernel

theorem fragment_legal (h : Header) (c : Byte) (hc : c &&& 0x0f = 0) (payload : List Byte)
    (h48 : payload.length ≤ 48) (k : Nat) (hk : k < (payload.length + 5) / 6) :
    legal (fragment h c payload k).data = some (k, payload.length) := by
  obtain ⟨n1, n2⟩ := nibbles c hc k (by omega)
  have hl : ((payload.drop (6 * k)).take 6).length = min 6 (payload.length - 6 * k) := by simp
  have hz : (BitVec.ofNat 8 payload.length).toNat = payload.length := by
    rw [BitVec.toNat_ofNat]; omega
  unfold legal fragment
  simp only [List.getD_cons_zero, List.getD_cons_succ, n1, hz, numberOfFragments_eq,
    List.length_cons, hl]
  rw [if_neg (by omega)]
  split
  · rw [if_neg (by omega)]
  · rw [if_neg (by omega)]

theorem fragment_concerns (h : Header) (c : Byte) (hc : c &&& 0x0f = 0) (payload : List Byte)
    (k : Nat) (hk : k < 8) : concerns h c (fragment h c payload k) = true := by
  rw [concerns_iff]
  exact ⟨(C62_round_trip h true).2, (C62_round_trip h true).1, (nibbles c hc k hk).2⟩

/-- The payload of which the fragments in `S` were received. -/
def buf (payload : List Byte) (S : List Nat) : List (Option Byte) :=
  (List.range payload.length).map fun j => if j / 6 ∈ S then payload[j]? else none

theorem buf_nil (payload : List Byte) : buf payload [] = List.replicate payload.length none := by
  unfold buf
  simp [List.map_const']

theorem buf_congr (payload : List Byte) (S T : List Nat) (h : ∀ k, k ∈ S ↔ k ∈ T) :
    buf payload S = buf payload T := by
  unfold buf
  simp only [h]

theorem buf_full (payload : List Byte) (S : List Nat)
    (h : ∀ k, k < (payload.length + 5) / 6 → k ∈ S) : buf payload S = payload.map some := by
  apply List.ext_getElem
  · simp [buf]
  · intro j h1 h2
    simp only [List.length_map] at h2
    have := h (j / 6) (by omega)
    simp [buf, this, h2]

theorem copy_buf (payload : List Byte) (S : List Nat) (k : Nat)
    (hk : k < (payload.length + 5) / 6) :
    copy (buf payload S) (k * 6) ((payload.drop (6 * k)).take 6) = some (buf payload (k :: S)) := by
  have hl : ((payload.drop (6 * k)).take 6).length = min 6 (payload.length - 6 * k) := by simp
  have hb : ∀ S, (buf payload S).length = payload.length := by intro S; simp [buf]
  unfold copy
  rw [if_pos (by rw [hl, hb]; omega), hl, Option.some.injEq]
  apply List.ext_getElem
  · simp only [List.length_append, List.length_take, List.length_drop, List.length_map, hb]
    omega
  · intro j h1 h2
    rw [hb] at h2
    have e : (buf payload (k :: S))[j] = if j / 6 = k ∨ j / 6 ∈ S then some payload[j] else none := by
      simp [buf, h2]
    have e' : ∀ h, (buf payload S)[j]'h = if j / 6 ∈ S then some payload[j] else none := by
      intro h; simp [buf, h2]
    rw [e]
    by_cases c1 : j < k * 6
    · rw [List.getElem_append_left (by simp [hb]; omega), List.getElem_append_left
        (by simp [hb]; omega), List.getElem_take, e']
      have : ¬ j / 6 = k := by omega
      simp [this]
    · by_cases c2 : j < k * 6 + 6
      · rw [List.getElem_append_left (by simp [hb]; omega), List.getElem_append_right
          (by simp [hb]; omega)]
        have : j / 6 = k := by omega
        simp [this, hb]
        congr 1
        omega
      · rw [List.getElem_append_right (by simp [hb]; omega)]
        have : ¬ j / 6 = k := by omega
        simp only [List.getElem_drop, this, false_or]
        rw [← e' (by rw [hb]; exact h2)]
        congr 1
        simp [hb]
        omega

/-- The fragments in `S` of the packet were received. -/
def Got (rx : Rx) (h : Header) (c : Byte) (payload : List Byte) (S : List Nat) : Prop :=
  ∃ m, itemFor rx h c payload.length = ⟨h, c, buf payload S, m⟩ ∧
    (∀ j, j < 8 → m.getLsbD j = decide (j ∈ S)) ∧ Modm.BitOps.bitCount8 m = S.length

theorem got_nil (rx : Rx) (h : Header) (c : Byte) (payload : List Byte)
    (hs : slot rx h c = none) : Got rx h c payload [] := by
  refine ⟨0, ?_, ?_, by decide⟩
  · rw [itemFor, hs, buf_nil]; rfl
  · intro j hj
    simp

theorem receive_fragment (rx : Rx) (hk : Keys rx) (h : Header) (c : Byte) (hc : c &&& 0x0f = 0)
    (payload : List Byte) (h48 : payload.length ≤ 48) (S : List Nat)
    (hg : Got rx h c payload S) (k : Nat) (hkn : k < (payload.length + 5) / 6) (hkS : k ∉ S) :
    ∃ rx', receive rx (fragment h c payload k) = some rx' ∧ Keys rx' ∧
      (∀ h' c', ¬ (h' = h ∧ c' = c) → slot rx' h' c' = slot rx h' c') ∧
      if S.length + 1 = (payload.length + 5) / 6 then
        slot rx' h c = none ∧ rx'.received = rx.received ++ [⟨h, buf payload (k :: S)⟩]
      else Got rx' h c payload (k :: S) ∧ rx'.received = rx.received := by
  obtain ⟨m, g1, g2, g3⟩ := hg
  have hcp := copy_buf payload S k hkn
  have hcp' : copy (itemFor rx h c payload.length).payload (k * 6)
      ((payload.drop (6 * k)).take 6) = some (buf payload (k :: S)) := by rw [g1]; exact hcp
  obtain ⟨rx', e, hk', ho, hcase⟩ := store_ok rx hk h c k payload.length _ _ hcp'
  obtain ⟨m1, m2⟩ := mark_facts m k (by omega) (by rw [g2 k (by omega)]; simpa using hkS)
  rw [g1] at hcase
  simp only [m1, g3, numberOfFragments_eq] at hcase
  refine ⟨rx', ?_, hk', ho, ?_⟩
  · unfold receive
    rw [if_pos (by exact (C62_round_trip h true).2), fragment_legal h c hc payload h48 k hkn]
    simp only [fragment, List.getD_cons_zero, (nibbles c hc k (by omega)).2,
      (C62_round_trip h true).1, List.drop_succ_cons, List.drop_zero]
    exact e
  · split at hcase
    · rename_i hfull
      rw [if_pos hfull]
      exact hcase
    · rename_i hfull
      rw [if_neg hfull]
      refine ⟨⟨mark m k, ?_, ?_, by rw [m1, g3]; rfl⟩, hcase.2⟩
      · rw [itemFor, hcase.1]; rfl
      · intro j hj
        rw [m2 j hj, g2 j hj]
        simp only [List.mem_cons]
        by_cases q1 : j ∈ S <;> by_cases q2 : j = k <;> simp [q1, q2]

theorem pre_got (h : Header) (c : Byte) (hc : c &&& 0x0f = 0) (payload : List Byte)
    (h48 : payload.length ≤ 48) (pre post : List Frame) : ∀ (rx : Rx) (S T : List Nat), Keys rx →
    Got rx h c payload S → Fits rx (pre ++ post) → Consistent (pre ++ post) →
    pre.filter (concerns h c) = T.map (fragment h c payload) → (∀ k ∈ T, k ∉ S) → T.Nodup →
    (∀ k ∈ T, k < (payload.length + 5) / 6) →
    S.length + T.length < (payload.length + 5) / 6 →
    ∃ rx', receiveAll rx pre = some rx' ∧ Keys rx' ∧ Got rx' h c payload (T.reverse ++ S) := by
  induction pre with
  | nil =>
    intro rx S T hk hg _ _ hT _ _ _ _
    have : T = [] := by
      cases T with
      | nil => rfl
      | cons a T => simp at hT
    subst this
    exact ⟨rx, rfl, hk, hg⟩
  | cons f pre ih =>
    intro rx S T hk hg hfit hcons hT hTS hnd hn hlen
    obtain ⟨rx1, e1, hk1, hfit1, hcons1⟩ := receiveAll_safe [f] (pre ++ post) rx hk hfit hcons
    rw [receiveAll_one] at e1
    by_cases hf : concerns h c f = true
    · rw [List.filter_cons_of_pos hf] at hT
      cases T with
      | nil => simp at hT
      | cons k T =>
        simp only [List.map_cons, List.cons.injEq] at hT
        obtain ⟨rfl, hT⟩ := hT
        rw [List.nodup_cons] at hnd
        simp only [List.length_cons] at hlen
        obtain ⟨rx', e, -, -, hcase⟩ := receive_fragment rx hk h c hc payload h48 S hg k
          (hn k (by simp)) (hTS k (by simp))
        rw [e1, Option.some.injEq] at e
        subst e
        rw [if_neg (by omega)] at hcase
        obtain ⟨rx', e', hk', hg'⟩ := ih rx1 (k :: S) T hk1 hcase.1 hfit1 hcons1 hT
          (fun j hj => by
            rw [List.mem_cons]
            rintro (rfl | h)
            · exact hnd.1 hj
            · exact hTS j (by simp [hj]) h) hnd.2 (fun j hj => hn j (by simp [hj]))
          (by simp only [List.length_cons]; omega)
        refine ⟨rx', ?_, hk', by simpa using hg'⟩
        rw [receiveAll, e1]
        exact e'
    · rw [List.filter_cons_of_neg hf] at hT
      obtain ⟨rx', e, -, ho, -⟩ := receive_effect rx hk f
        (fun p hp g hg => hfit p hp g (by simp at hg; simp [hg]))
      rw [e1, Option.some.injEq] at e
      subst e
      have hg1 : Got rx1 h c payload S := by
        unfold Got itemFor
        rw [ho h c hf]
        exact hg
      obtain ⟨rx', e', hk', hg'⟩ := ih rx1 S T hk1 hg1 hfit1 hcons1 hT hTS hnd hn hlen
      refine ⟨rx', ?_, hk', hg'⟩
      rw [receiveAll, e1]
      exact e'

theorem store_none (rx : Rx) (h : Header) (c : Byte) (index size : Nat) (bytes : List Byte)
    (hc : copy (itemFor rx h c size).payload (index * 6) bytes = none) :
    store rx h c index size bytes = none := by
  obtain ⟨pend, recd⟩ := rx
  rcases span_cases h c pend with ⟨h1, h2⟩ | ⟨b, p, a, h1, h2, h3, h4, h5⟩
  · have hi : itemFor ⟨pend, recd⟩ h c size = ⟨h, c, List.replicate size none, 0⟩ := by
      rw [itemFor, slot, h2]; rfl
    rw [hi] at hc
    simp only at hc
    simp only [store, h1, hc, Option.map_none]
  · have hi : itemFor ⟨pend, recd⟩ h c size = p := by
      rw [itemFor, slot, h4]; rfl
    rw [hi] at hc
    simp only [store, h2, hc, Option.map_none]

theorem receive_keys (rx rx' : Rx) (f : Frame) (hk : Keys rx) (e : receive rx f = some rx') :
    Keys rx' := by
  unfold receive at e
  split at e
  · split at e
    · simp only [Option.some.injEq] at e; subst e; exact hk
    · rename_i index size hl
      cases hp : copy (itemFor rx (toHeader f.identifier) (f.data.getD 0 0 &&& 0xf0) size).payload
        (index * 6) (f.data.drop 2) with
      | none => rw [store_none _ _ _ _ _ _ hp] at e; simp at e
      | some payload =>
        obtain ⟨rx1, e1, hk1, -⟩ := store_ok _ hk _ _ _ _ _ _ hp
        rw [e1, Option.some.injEq] at e
        subst e
        exact hk1
  · simp only [Option.some.injEq] at e; subst e; exact hk

theorem receiveAll_keys (fs : List Frame) : ∀ (rx rx' : Rx), Keys rx →
    receiveAll rx fs = some rx' → Keys rx' := by
  induction fs with
  | nil => intro rx rx' hk e; simp only [receiveAll, Option.some.injEq] at e; subst e; exact hk
  | cons f fs ih =>
    intro rx rx' hk e
    simp only [receiveAll, Option.bind_eq_some_iff] at e
    obtain ⟨rx1, e1, e2⟩ := e
    exact ih _ _ (receive_keys _ _ _ hk e1) e2

theorem fragment_index (h : Header) (c : Byte) (hc : c &&& 0x0f = 0) (payload : List Byte)
    (k : Nat) (hk : k < 8) :
    ((fragment h c payload k).data.getD 0 0 &&& 0x0f).toNat = k := (nibbles c hc k hk).1

/-- A packet of up to 48 bytes is delivered, with its header and all its bytes, by whichever of its
fragments comes last, and by no other: in any order of the fragments, between any other frames
(short packets, fragments of other packets, malformed frames), after any history. -/
theorem C63_any_order (fs0 : List Frame) (rx0 : Rx) (h0 : receiveAll ⟨[], []⟩ fs0 = some rx0)
    (h : Header) (c : Byte) (hc : c &&& 0x0f = 0) (hfresh : Fresh rx0 h c)
    (payload : List Byte) (h48 : payload.length ≤ 48)
    (fs : List Frame) (hfit : Fits rx0 fs) (hcons : Consistent fs)
    (hperm : (fs.filter (concerns h c)).Perm (fragments h c payload))
    (pre post : List Frame) (f : Frame) (hsplit : fs = pre ++ f :: post)
    (hf : concerns h c f = true) :
    ∃ rx rx', receiveAll rx0 pre = some rx ∧ receive rx f = some rx' ∧
      rx'.received = rx.received ++
        if ∃ g ∈ post, concerns h c g = true then [] else [⟨h, payload.map some⟩] := by
  have hk0 : Keys rx0 := receiveAll_keys fs0 ⟨[], []⟩ rx0 List.Pairwise.nil h0
  subst hsplit
  obtain ⟨n, hn⟩ : ∃ n, n = (payload.length + 5) / 6 := ⟨_, rfl⟩
  unfold fragments at hperm
  rw [← hn] at hperm
  -- the indices of the fragments of the packet, in the order in which they come
  obtain ⟨ix, hix⟩ : ∃ ix : Frame → Nat, ix = fun f => (f.data.getD 0 0 &&& 0x0f).toNat := ⟨_, rfl⟩
  have hinv : ∀ k < n, ix (fragment h c payload k) = k := by
    intro k hk
    rw [hix]
    exact fragment_index h c hc payload k (by omega)
  have hmem : ∀ g, g ∈ (pre ++ f :: post).filter (concerns h c) →
      g = fragment h c payload (ix g) ∧ ix g < n := by
    intro g hg
    obtain ⟨k, hk, rfl⟩ := List.mem_map.mp (hperm.mem_iff.mp hg)
    rw [List.mem_range] at hk
    rw [hinv k hk]
    exact ⟨rfl, hk⟩
  have hpi : (((pre ++ f :: post).filter (concerns h c)).map ix).Perm (List.range n) := by
    refine (hperm.map ix).trans ?_
    rw [List.map_map]
    have : (List.range n).map (ix ∘ fragment h c payload) = List.range n := by
      conv_rhs => rw [← List.map_id (List.range n)]
      apply List.map_congr_left
      intro k hk
      exact hinv k (List.mem_range.mp hk)
    rw [this]
  rw [List.filter_append, List.filter_cons_of_pos hf] at hpi hmem
  obtain ⟨A, hA⟩ : ∃ A, A = pre.filter (concerns h c) := ⟨_, rfl⟩
  obtain ⟨B, hB⟩ : ∃ B, B = post.filter (concerns h c) := ⟨_, rfl⟩
  rw [← hA, ← hB] at hpi hmem
  have hnd := hpi.nodup_iff.mpr List.nodup_range
  have hlen := hpi.length_eq
  rw [List.map_append, List.map_cons] at hnd hpi
  simp only [List.length_map, List.length_append, List.length_cons, List.length_range] at hlen
  rw [List.nodup_append] at hnd
  obtain ⟨nd1, nd2, nd3⟩ := hnd
  have hAT : pre.filter (concerns h c) = (A.map ix).map (fragment h c payload) := by
    rw [← hA, List.map_map]
    conv_lhs => rw [← List.map_id A]
    apply List.map_congr_left
    intro g hg
    exact (hmem g (by simp [hg])).1
  obtain ⟨rx, e, hk, hg⟩ := pre_got h c hc payload h48 pre (f :: post) rx0 [] (A.map ix) hk0
    (got_nil _ _ _ _ ((slot_none _ _ _).mpr hfresh)) hfit hcons hAT (by simp) nd1
    (fun k hk => by
      obtain ⟨g, hg, rfl⟩ := List.mem_map.mp hk
      rw [← hn]
      exact (hmem g (by simp [hg])).2) (by simp only [List.length_map, List.length_nil]; omega)
  obtain ⟨hf1, hf2⟩ := hmem f (by simp)
  rw [hn] at hf2
  obtain ⟨rx', e', -, -, hcase⟩ := receive_fragment rx hk h c hc payload h48 _ hg (ix f) hf2
    (by
      simp only [List.append_nil, List.mem_reverse]
      intro hx
      exact nd3 _ hx (ix f) (by simp) rfl)
  rw [← hf1] at e'
  refine ⟨rx, rx', e, e', ?_⟩
  simp only [List.append_nil, List.length_reverse, List.length_map] at hcase
  by_cases hpost : ∃ g ∈ post, concerns h c g = true
  · rw [if_pos hpost]
    obtain ⟨g, hg1, hg2⟩ := hpost
    have : 1 ≤ B.length := by
      apply List.length_pos_of_mem (a := g)
      rw [hB]
      exact List.mem_filter.mpr ⟨hg1, hg2⟩
    rw [if_neg (by omega)] at hcase
    rw [hcase.2, List.append_nil]
  · rw [if_neg hpost]
    have hB0 : B = [] := by
      rw [hB, List.filter_eq_nil_iff]
      intro g hg hcg
      exact hpost ⟨g, hg, hcg⟩
    subst hB0
    rw [if_pos (by simp only [List.length_nil] at hlen; omega)] at hcase
    rw [hcase.2, buf_full]
    intro k hk
    have := hpi.mem_iff.mpr (List.mem_range.mpr (by rw [hn]; exact hk : k < n))
    simp only [List.map_nil, List.mem_append, List.mem_cons, List.not_mem_nil, or_false] at this
    simp only [List.mem_cons, List.mem_reverse]
    exact this.symm

/-- A packet of up to eight bytes travels in one frame and is delivered at once. -/
theorem C63_short (rx : Rx) (h : Header) (payload : List Byte) :
    receive rx ⟨toIdentifier h false, payload⟩ =
      some { rx with received := rx.received ++ [⟨h, payload.map some⟩] } := by
  unfold receive
  simp only [(C62_round_trip h false).1, (C62_round_trip h false).2, Bool.false_eq_true, if_false]

theorem fragments_consistent (h : Header) (c : Byte) (payload : List Byte) :
    Consistent (fragments h c payload).reverse := by
  intro f hf g hg _ _ _ _ _ _
  simp only [fragments, List.mem_reverse, List.mem_map] at hf hg
  obtain ⟨i, -, rfl⟩ := hf
  obtain ⟨j, -, rfl⟩ := hg
  rfl

/-- The hypotheses of C63 hold for instance for the fragments in reverse order. -/
example (h : Header) (c : Byte) (hc : c &&& 0x0f = 0) (payload : List Byte)
    (h48 : payload.length ≤ 48) (h1 : 1 ≤ payload.length) :
    ∃ rx rx', receiveAll ⟨[], []⟩ ((fragments h c payload).reverse.dropLast) = some rx ∧
      receive rx (fragment h c payload 0) = some rx' ∧
      rx'.received = rx.received ++ [⟨h, payload.map some⟩] := by
  obtain ⟨m, hm⟩ : ∃ m, (payload.length + 5) / 6 = m + 1 := ⟨(payload.length - 1) / 6, by omega⟩
  have hfr : fragments h c payload = fragment h c payload 0 ::
      ((List.range m).map Nat.succ).map (fragment h c payload) := by
    rw [fragments, hm, List.range_succ_eq_map]; rfl
  have hall : ∀ f ∈ (fragments h c payload).reverse, concerns h c f = true := by
    intro f hf
    simp only [fragments, List.mem_reverse, List.mem_map, List.mem_range] at hf
    obtain ⟨k, hk, rfl⟩ := hf
    exact fragment_concerns h c hc payload k (by omega)
  have hsplit : (fragments h c payload).reverse = (fragments h c payload).reverse.dropLast ++
      fragment h c payload 0 :: [] := by
    rw [hfr]; simp
  have := C63_any_order [] _ rfl h c hc (fun p hp => by simp at hp) payload h48
    (fragments h c payload).reverse (fun p hp => by simp at hp)
    (fragments_consistent h c payload)
    (by rw [List.filter_eq_self.mpr hall]; exact List.reverse_perm _) _ _ _ hsplit
    (fragment_concerns h c hc payload 0 (by omega))
  simpa using this

/-- A packet of 13 bytes in the order 2, 0, 1, and another one with the next counter in between. -/
example : (receiveAll ⟨[], []⟩
      [fragment ⟨.request, false, 1, 2, 3⟩ 0x20 [1, 2, 3, 4, 5, 6, 7, 8, 9, 10, 11, 12, 13] 2,
       fragment ⟨.request, false, 1, 2, 3⟩ 0x30 [21, 22, 23, 24, 25, 26, 27, 28, 29] 0,
       fragment ⟨.request, false, 1, 2, 3⟩ 0x20 [1, 2, 3, 4, 5, 6, 7, 8, 9, 10, 11, 12, 13] 0,
       fragment ⟨.request, false, 1, 2, 3⟩ 0x30 [21, 22, 23, 24, 25, 26, 27, 28, 29] 1,
       fragment ⟨.request, false, 1, 2, 3⟩ 0x20 [1, 2, 3, 4, 5, 6, 7, 8, 9, 10, 11, 12, 13] 1]) =
    some ⟨[], [⟨⟨.request, false, 1, 2, 3⟩, [21, 22, 23, 24, 25, 26, 27, 28, 29].map some⟩,
      ⟨⟨.request, false, 1, 2, 3⟩, [1, 2, 3, 4, 5, 6, 7, 8, 9, 10, 11, 12, 13].map some⟩]⟩ := by
  decide +kernel

/-! ## C65 -/

/-- An item of the send list. -/
structure Item (i : SendItem) : Prop where
  size : i.payload.length ≤ 48
  ident : ∃ h, i.identifier = toIdentifier h (decide (i.payload.length > 8))
  index : i.index < max 1 ((i.payload.length + 5) / 6)
  short : i.payload.length ≤ 8 → i.index = 0

/-- What the receiver knows of the packet in transmission. -/
structure Inv (l : Link) : Prop where
  keys : Keys l.rx
  items : ∀ i ∈ l.tx.queue, Item i
  tail : ∀ i ∈ l.tx.queue.tail, i.index = 0
  idle : ∀ h c, (∀ i ∈ l.tx.queue.head?, i.index = 0 ∨
    ¬ (h = toHeader i.identifier ∧ c = l.tx.counter &&& 0xf0)) → slot l.rx h c = none
  got : ∀ i ∈ l.tx.queue.head?,
    Got l.rx (toHeader i.identifier) (l.tx.counter &&& 0xf0) i.payload (List.range i.index).reverse

theorem init_inv (c : Byte) : Inv ⟨⟨[], c⟩, ⟨[], []⟩, []⟩ where
  keys := List.Pairwise.nil
  items := by simp
  tail := by simp
  idle := by intro h c _; rfl
  got := by simp

theorem and_f0 (c : Byte) : (c &&& 0xf0) &&& 0x0f = 0 := by
  revert c; decide +kernel

/-- Delivered and waiting packets. -/
def total (l : Link) : List (Header × List (Option Byte)) :=
  delivered l ++ (waiting l).map asDelivered

theorem build_eq (c : Byte) (i : SendItem) (hi : Item i) (h9 : 8 < i.payload.length) :
    buildFragment c i = fragment (toHeader i.identifier) (c &&& 0xf0) i.payload i.index ∧
      remaining i = i.payload.length - 6 * i.index ∧ byteSize i.payload = i.payload.length := by
  obtain ⟨h, hid⟩ := hi.ident
  have h48 := hi.size
  have hix := hi.index
  have e1 : byteSize i.payload = i.payload.length := by unfold byteSize; omega
  have e2 : offset i = 6 * i.index := by unfold offset; omega
  have e3 : remaining i = i.payload.length - 6 * i.index := by
    unfold remaining
    rw [e1, e2]
    omega
  refine ⟨?_, e3, e1⟩
  have ht : decide (i.payload.length > 8) = true := by simpa using h9
  rw [ht] at hid
  unfold buildFragment fragment
  rw [e1, e2, e3, hid, (C62_round_trip h true).1]
  congr 3
  have hl : (i.payload.drop (6 * i.index)).length = i.payload.length - 6 * i.index := by simp
  rw [← hl, ← List.take_take, List.take_length]

theorem got_of_slot (rx rx' : Rx) (h : Header) (c : Byte) (payload : List Byte) (S : List Nat)
    (e : slot rx' h c = slot rx h c) (g : Got rx h c payload S) : Got rx' h c payload S := by
  unfold Got itemFor at *
  rw [e]
  exact g

/-- After the front of the send list is gone. -/
theorem inv_next (l : Link) (hi : Inv l) (i : SendItem) (rest : List SendItem)
    (hq : l.tx.queue = i :: rest) (rx' : Rx) (hk : Keys rx')
    (hs : ∀ h c, slot rx' h c = none) (c : Byte) (sent : List (Header × List Byte)) :
    Inv ⟨⟨rest, c⟩, rx', sent⟩ where
  keys := hk
  items := fun j hj => hi.items j (by rw [hq]; simp; exact Or.inr hj)
  tail := fun j hj => hi.tail j (by rw [hq]; exact List.mem_of_mem_tail hj)
  idle := fun h c _ => hs h c
  got := by
    intro j hj
    have h0 : j.index = 0 := hi.tail j (by rw [hq]; exact List.mem_of_mem_head? hj)
    rw [h0]
    exact got_nil _ _ _ _ (hs _ _)

theorem update_inv (l : Link) (hi : Inv l) (accepted : Bool) :
    ∃ l', step l (.update accepted) = some l' ∧ Inv l' ∧ total l' = total l ∧ l'.sent = l.sent := by
  unfold step
  simp only
  cases hq : l.tx.queue with
  | nil =>
    refine ⟨l, ?_, hi, rfl, rfl⟩
    simp [sendWaiting, hq, receiveAll]
  | cons i rest =>
    cases accepted with
    | false =>
      refine ⟨l, ?_, hi, rfl, rfl⟩
      simp [sendWaiting, hq, receiveAll]
    | true =>
      have hit := hi.items i (by rw [hq]; simp)
      obtain ⟨h, hid⟩ := hit.ident
      have h48 := hit.size
      have hw : waiting l = (h, i.payload) ::
          rest.map fun i => (toHeader i.identifier, i.payload) := by
        rw [waiting, hq, List.map_cons, hid, (C62_round_trip h _).1]
      by_cases h9 : 8 < i.payload.length
      · obtain ⟨b1, b2, b3⟩ := build_eq l.tx.counter i hit h9
        have hth : toHeader i.identifier = h := by rw [hid]; exact (C62_round_trip h _).1
        have hix := hit.index
        have hg := hi.got i (by rw [hq]; simp)
        have hsw : sendWaiting true true l.tx =
            (fragmentSent l.tx i rest, [buildFragment l.tx.counter i]) := by
          unfold sendWaiting
          rw [hq]
          simp only [b3, Bool.not_true, Bool.false_eq_true, if_false]
          rw [if_pos h9]
        obtain ⟨rx', e, hk, ho, hcase⟩ := receive_fragment l.rx hi.keys _ _
          (and_f0 l.tx.counter) i.payload h48 _ hg i.index (by omega) (by simp)
        rw [hsw]
        simp only
        rw [receiveAll_one, b1, e, Option.map_some]
        refine ⟨_, rfl, ?_⟩
        simp only [List.length_reverse, List.length_range] at hcase
        have hout : ∀ h' c', ¬ (h' = toHeader i.identifier ∧ c' = l.tx.counter &&& 0xf0) →
            slot rx' h' c' = none := by
          intro h' c' hne
          rw [ho h' c' hne]
          apply hi.idle
          intro j hj
          rw [hq] at hj
          simp only [List.head?_cons, Option.mem_def, Option.some.injEq] at hj
          subst hj
          exact Or.inr hne
        by_cases hlast : i.index + 1 = (i.payload.length + 5) / 6
        · rw [if_pos hlast] at hcase
          have hsent : fragmentSent l.tx i rest = ⟨rest, l.tx.counter + 0x10⟩ := by
            unfold fragmentSent
            rw [b2, if_neg (by omega)]
          rw [hsent]
          refine ⟨inv_next l hi i rest hq rx' hk ?_ _ _, ?_, rfl⟩
          · intro h' c'
            by_cases hkey : h' = toHeader i.identifier ∧ c' = l.tx.counter &&& 0xf0
            · rw [hkey.1, hkey.2]; exact hcase.1
            · exact hout h' c' hkey
          · have hfull : buf i.payload (i.index :: (List.range i.index).reverse) =
                i.payload.map some := by
              apply buf_full
              intro k hk
              simp only [List.mem_cons, List.mem_reverse, List.mem_range]
              omega
            rw [hfull] at hcase
            unfold total delivered
            rw [hw]
            simp only [hcase.2, List.map_append, List.map_cons, List.map_nil, hth, waiting,
              asDelivered, List.append_assoc, List.singleton_append]
        · rw [if_neg hlast] at hcase
          have hsent : fragmentSent l.tx i rest =
              { l.tx with queue := { i with index := i.index + 1 } :: rest } := by
            unfold fragmentSent
            rw [b2, if_pos (by omega), Nat.mod_eq_of_lt (by omega)]
          rw [hsent]
          refine ⟨⟨hk, ?_, ?_, ?_, ?_⟩, ?_, rfl⟩
          · intro j hj
            rcases List.mem_cons.mp hj with rfl | hj
            · exact ⟨h48, ⟨h, hid⟩, by simp only; omega, by simp only; omega⟩
            · exact hi.items j (by rw [hq]; simp [hj])
          · intro j hj
            exact hi.tail j (by rw [hq]; exact hj)
          · intro h' c' hh
            apply hout
            have := hh { i with index := i.index + 1 } (by simp)
            simpa using this
          · intro j hj
            simp only [List.head?_cons, Option.mem_def, Option.some.injEq] at hj
            subst hj
            simp only
            rw [List.range_succ, List.reverse_append]
            exact hcase.1
          · unfold total delivered waiting
            simp only [hcase.2, hq, List.map_cons]
      · have h0 := hit.short (by omega)
        have hf : decide (i.payload.length > 8) = false := by simpa using h9
        rw [hf] at hid
        have e1 : byteSize i.payload = i.payload.length := by unfold byteSize; omega
        have hsw : sendWaiting true true l.tx =
            ({ l.tx with queue := rest }, [⟨i.identifier, i.payload⟩]) := by
          unfold sendWaiting
          rw [hq]
          simp only [e1, Bool.not_true, Bool.false_eq_true, if_false, List.take_length]
          rw [if_neg h9]
        rw [hsw]
        simp only
        rw [receiveAll_one, hid, C63_short, Option.map_some]
        refine ⟨_, rfl, inv_next l hi i rest hq
          { l.rx with received := l.rx.received ++ [⟨h, i.payload.map some⟩] } hi.keys ?_ _ _, ?_, rfl⟩
        · intro h' c'
          apply hi.idle
          intro j hj
          rw [hq] at hj
          simp only [List.head?_cons, Option.mem_def, Option.some.injEq] at hj
          subst hj
          exact Or.inl h0
        · unfold total delivered
          rw [hw]
          simp only [List.map_append, List.map_cons, List.map_nil, waiting,
            asDelivered, List.append_assoc, List.singleton_append]

theorem send_inv (l : Link) (hi : Inv l) (h : Header) (payload : List Byte) (ready accepted : Bool)
    (h48 : payload.length ≤ 48) :
    ∃ l', step l (.send h payload ready accepted) = some l' ∧ Inv l' ∧
      l'.sent = l.sent ++ [(h, payload)] ∧
      (total l' = total l ++ [asDelivered (h, payload)] ∨
        (ready = true ∧ accepted = true ∧ payload.length ≤ 8 ∧
          delivered l' = delivered l ++ [asDelivered (h, payload)] ∧ waiting l' = waiting l)) := by
  unfold step sendPacket
  simp only
  by_cases hd : (!decide (payload.length > 8) && ready && accepted) = true
  · rw [if_pos hd]
    simp only [Bool.and_eq_true, Bool.not_eq_true', decide_eq_false_iff_not, Nat.not_lt] at hd
    have hf : decide (payload.length > 8) = false := by simp; omega
    simp only [hf]
    rw [receiveAll_one, C63_short, Option.map_some]
    refine ⟨_, rfl, ⟨hi.keys, hi.items, hi.tail, hi.idle, hi.got⟩, rfl, Or.inr
      ⟨hd.1.2, hd.2, by omega, ?_, rfl⟩⟩
    simp [delivered, asDelivered]
  · rw [if_neg hd]
    simp only [receiveAll, Option.map_some]
    refine ⟨_, rfl, ⟨hi.keys, ?_, ?_, ?_, ?_⟩, rfl, Or.inl ?_⟩
    · intro j hj
      rcases List.mem_append.mp hj with hj | hj
      · exact hi.items j hj
      · simp only [List.mem_singleton] at hj
        subst hj
        exact ⟨h48, ⟨h, rfl⟩, by simp only; omega, fun _ => rfl⟩
    · intro j hj
      simp only at hj
      cases hq : l.tx.queue with
      | nil => rw [hq] at hj; simp at hj
      | cons i rest =>
        rw [hq] at hj
        simp only [List.cons_append, List.tail_cons, List.mem_append, List.mem_singleton] at hj
        rcases hj with hj | rfl
        · exact hi.tail j (by rw [hq]; exact hj)
        · rfl
    · intro h' c' hh
      apply hi.idle
      intro j hj
      apply hh
      simp only [Option.mem_def] at hj ⊢
      rw [List.head?_append, hj]; rfl
    · intro j hj
      simp only at hj
      cases hq : l.tx.queue with
      | nil =>
        rw [hq] at hj
        simp only [List.nil_append, List.head?_cons, Option.mem_def, Option.some.injEq] at hj
        subst hj
        exact got_nil _ _ _ _ (hi.idle _ _ (by rw [hq]; simp))
      | cons i rest =>
        rw [hq] at hj
        exact hi.got j (by rw [hq]; exact hj)
    · simp only [total, delivered, waiting, List.map_append, List.map_cons, List.map_nil,
        List.append_assoc, (C62_round_trip h _).1]

theorem step_inv (l : Link) (hi : Inv l) (op : Op) (hop : op.Small) :
    ∃ l', step l op = some l' ∧ Inv l' ∧
      ((total l).Perm (l.sent.map asDelivered) → (total l').Perm (l'.sent.map asDelivered)) ∧
      ((∀ h payload, op = .send h payload true true → l.tx.queue = [] ∨ 8 < payload.length) →
        total l = l.sent.map asDelivered → total l' = l'.sent.map asDelivered) := by
  cases op with
  | update accepted =>
    obtain ⟨l', e, hi', ht, hs⟩ := update_inv l hi accepted
    exact ⟨l', e, hi', by rw [ht, hs]; exact id, by rw [ht, hs]; exact fun _ h => h⟩
  | send h payload ready accepted =>
    obtain ⟨l', e, hi', hs, hc⟩ := send_inv l hi h payload ready accepted hop
    refine ⟨l', e, hi', ?_, ?_⟩
    · intro hp
      rw [hs, List.map_append]
      rcases hc with hc | ⟨-, -, -, hd, hw⟩
      · rw [hc]
        exact hp.append_right _
      · unfold total at hp ⊢
        rw [hd, hw, List.append_assoc]
        refine (List.Perm.append_left _ List.perm_append_comm).trans ?_
        rw [← List.append_assoc]
        exact hp.append_right _
    · intro hpol hp
      rw [hs, List.map_append]
      rcases hc with hc | ⟨rfl, rfl, h8, hd, hw⟩
      · rw [hc, hp]; rfl
      · have hq : l.tx.queue = [] := (hpol h payload rfl).resolve_right (by omega)
        have hwl : waiting l = [] := by rw [waiting, hq]; rfl
        unfold total at hp ⊢
        rw [hd, hw, ← hp, hwl]
        simp

theorem run_inv (ops : List Op) : ∀ l, Inv l → (∀ op ∈ ops, op.Small) →
    ∃ l', run l ops = some l' ∧ Inv l' ∧
      ((total l).Perm (l.sent.map asDelivered) → (total l').Perm (l'.sent.map asDelivered)) ∧
      (Polite l ops →
        total l = l.sent.map asDelivered → total l' = l'.sent.map asDelivered) := by
  induction ops with
  | nil => intro l hi _; exact ⟨l, rfl, hi, id, fun _ h => h⟩
  | cons op ops ih =>
    intro l hi hs
    obtain ⟨l1, e1, hi1, p1, q1⟩ := step_inv l hi op (hs op (by simp))
    obtain ⟨l2, e2, hi2, p2, q2⟩ := ih l1 hi1 fun op hop => hs op (by simp [hop])
    refine ⟨l2, by rw [run, e1]; exact e2, hi2, fun h => p2 (p1 h), fun hp h => ?_⟩
    exact q2 (hp.2 l1 e1) (q1 hp.1 h)

/-- Packets of up to 48 bytes: whatever is handed over when, and however often the driver refuses
a frame, nothing is lost, invented, changed or delivered twice: at any time, what was delivered
together with what is still waiting is what was sent. -/
theorem C65_lossless_partial (counter : Byte) (ops : List Op) (hs : ∀ op ∈ ops, op.Small) :
    ∃ l, run ⟨⟨[], counter⟩, ⟨[], []⟩, []⟩ ops = some l ∧
      (delivered l ++ (waiting l).map asDelivered).Perm (l.sent.map asDelivered) := by
  obtain ⟨l, e, -, p, -⟩ := run_inv ops _ (init_inv counter) hs
  exact ⟨l, e, p (by simp [total, delivered, waiting])⟩

/-- In the order sent, if no short packet is handed over while others are waiting and the driver is
ready. -/
theorem C65_in_order_partial (counter : Byte) (ops : List Op) (hs : ∀ op ∈ ops, op.Small)
    (hp : Polite ⟨⟨[], counter⟩, ⟨[], []⟩, []⟩ ops) :
    ∃ l, run ⟨⟨[], counter⟩, ⟨[], []⟩, []⟩ ops = some l ∧
      delivered l ++ (waiting l).map asDelivered = l.sent.map asDelivered := by
  obtain ⟨l, e, -, -, q⟩ := run_inv ops _ (init_inv counter) hs
  exact ⟨l, e, q hp (by simp [total, delivered, waiting])⟩

/-- The frames still to be sent. -/
def left (q : List SendItem) : Nat :=
  (q.map fun i => if 8 < i.payload.length then (i.payload.length + 5) / 6 - i.index else 1).sum

theorem update_left (l : Link) (hi : Inv l) (l' : Link) (e : step l (.update true) = some l')
    (hq : l.tx.queue ≠ []) : left l'.tx.queue + 1 = left l.tx.queue := by
  unfold step at e
  simp only at e
  rw [Option.map_eq_some_iff] at e
  obtain ⟨rx, -, rfl⟩ := e
  simp only
  cases hc : l.tx.queue with
  | nil => exact absurd hc hq
  | cons i rest =>
    have hit := hi.items i (by rw [hc]; simp)
    have h48 := hit.size
    have hix := hit.index
    unfold sendWaiting
    rw [hc]
    simp only [Bool.not_true, Bool.false_eq_true, if_false]
    have hbs : byteSize i.payload = i.payload.length := by unfold byteSize; omega
    rw [hbs]
    by_cases h9 : 8 < i.payload.length
    · obtain ⟨-, b2, b3⟩ := build_eq l.tx.counter i hit h9
      rw [if_pos h9]
      simp only
      unfold fragmentSent
      rw [b2]
      by_cases h6 : i.payload.length - 6 * i.index > 6
      · rw [if_pos h6]
        simp only [left, List.map_cons, List.sum_cons]
        rw [if_pos h9, if_pos h9, Nat.mod_eq_of_lt (by omega)]
        omega
      · rw [if_neg h6]
        simp only [left, List.map_cons, List.sum_cons]
        rw [if_pos h9]
        omega
    · rw [if_neg h9]
      simp only [left, List.map_cons, List.sum_cons]
      rw [if_neg h9]
      omega

theorem left_le (q : List SendItem) (hq : ∀ i ∈ q, Item i) : left q ≤ 8 * q.length := by
  induction q with
  | nil => simp [left]
  | cons i q ih =>
    have := ih fun j hj => hq j (by simp [hj])
    have h1 := (hq i (by simp)).size
    simp only [left, List.map_cons, List.sum_cons, List.length_cons] at this ⊢
    split <;> omega

theorem drain (n : Nat) : ∀ l, Inv l → left l.tx.queue = n →
    ∃ l', run l (List.replicate n (.update true)) = some l' ∧ Inv l' ∧ l'.tx.queue = [] ∧
      total l' = total l ∧ l'.sent = l.sent := by
  induction n with
  | zero =>
    intro l hi h
    refine ⟨l, rfl, hi, ?_, rfl, rfl⟩
    cases hc : l.tx.queue with
    | nil => rfl
    | cons i rest =>
      exfalso
      obtain ⟨l', e, -⟩ := update_inv l hi true
      have := update_left l hi l' e (by rw [hc]; simp)
      omega
  | succ n ih =>
    intro l hi h
    obtain ⟨l1, e1, hi1, t1, s1⟩ := update_inv l hi true
    have hne : l.tx.queue ≠ [] := by
      intro hc
      rw [hc] at h
      simp [left] at h
    have := update_left l hi l1 e1 hne
    obtain ⟨l2, e2, hi2, q2, t2, s2⟩ := ih l1 hi1 (by omega)
    refine ⟨l2, ?_, hi2, q2, t2.trans t1, s2.trans s1⟩
    rw [List.replicate_succ, run, e1]
    exact e2

/-- Nothing is stuck: after at most eight accepted frames per waiting packet everything sent is
delivered. -/
theorem C65_drains_partial (counter : Byte) (ops : List Op) (hs : ∀ op ∈ ops, op.Small) :
    ∃ l n l', run ⟨⟨[], counter⟩, ⟨[], []⟩, []⟩ ops = some l ∧ n ≤ 8 * l.tx.queue.length ∧
      run l (List.replicate n (.update true)) = some l' ∧ waiting l' = [] ∧
      (delivered l').Perm (l.sent.map asDelivered) := by
  obtain ⟨l, e, hi, p, -⟩ := run_inv ops _ (init_inv counter) hs
  obtain ⟨l', e', -, q, t, -⟩ := drain _ l hi rfl
  have hw : waiting l' = [] := by rw [waiting, q]; rfl
  refine ⟨l, _, l', e, left_le _ hi.items, e', hw, ?_⟩
  have := p (by simp [total, delivered, waiting])
  rw [← t, total, hw] at this
  simpa using this

/-- The order is not kept in general: a packet of nine bytes, then one of one byte; the second one
is sent directly and overtakes. -/
theorem C65_overtakes_counterexample :
    ∃ l, run ⟨⟨[], 0⟩, ⟨[], []⟩, []⟩
        [.send ⟨.request, false, 1, 2, 3⟩ [1, 2, 3, 4, 5, 6, 7, 8, 9] true true,
         .send ⟨.request, false, 1, 2, 3⟩ [42] true true,
         .update true, .update true] = some l ∧
      l.sent.map (·.2) = [[1, 2, 3, 4, 5, 6, 7, 8, 9], [42]] ∧
      (delivered l).map (·.2) = [[42], [1, 2, 3, 4, 5, 6, 7, 8, 9]].map (List.map some) := by
  refine ⟨_, rfl, ?_, ?_⟩ <;> decide +kernel

/-- A packet of 49 bytes is sent completely, and never delivered. -/
theorem C65_long_packet_counterexample :
    ∃ l, run ⟨⟨[], 0⟩, ⟨[], []⟩, []⟩
        (.send ⟨.request, false, 1, 2, 3⟩ (List.replicate 49 7) true true ::
          List.replicate 9 (.update true)) = some l ∧
      waiting l = [] ∧ l.rx = ⟨[], []⟩ := by
  refine ⟨_, rfl, ?_, ?_⟩ <;> decide +kernel

/-- The counter is shared by all the connectors of a program: when another connector completes a
packet between two fragments, the rest of the fragments carries another counter, and the packet
is never delivered. -/
theorem C65_two_connectors_counterexample :
    let item : SendItem :=
      ⟨toIdentifier ⟨.request, false, 1, 2, 3⟩ true, [1, 2, 3, 4, 5, 6, 7, 8, 9], 0⟩
    let first := sendWaiting true true ⟨[item], 0⟩
    let second := sendWaiting true true { first.1 with counter := first.1.counter + 0x10 }
    second.1.queue = [] ∧
      (receiveAll ⟨[], []⟩ (first.2 ++ second.2)).map (·.received) = some [] := by
  decide +kernel

/-- The hypotheses of C65 allow long and short packets and refusals of the driver. -/
example : ∃ l, run ⟨⟨[], 0xf3⟩, ⟨[], []⟩, []⟩
    [.send ⟨.request, false, 1, 2, 3⟩ [1, 2, 3, 4, 5, 6, 7, 8, 9] true true,
     .update true, .update false,
     .send ⟨.response, true, 1, 2, 3⟩ [42] false true,
     .send ⟨.request, false, 1, 2, 3⟩ [9, 8, 7, 6, 5, 4, 3, 2, 1] true true,
     .update true, .update true, .update true] = some l ∧
    (delivered l).map (·.2) = [[1, 2, 3, 4, 5, 6, 7, 8, 9], [42]].map (List.map some) ∧
    l.rx.pending.length = 1 := by
  refine ⟨_, rfl, ?_, ?_⟩ <;> decide +kernel

end Props.XpccCan
