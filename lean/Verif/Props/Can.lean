import Verif.Model.Can
import Mathlib.Tactic.IntervalCases
set_option autoImplicit false
/- Properties C57, C58 (`can::Message`). -/
namespace Props.Can
open Modm.Can
open Modm.Sab (Byte)

/-- lengths of a CAN FD frame, with the smallest length that holds `n` bytes -/
def fdLengths : List Nat := List.range 9 ++ [12, 16, 20, 24, 32, 48, 64]

/-- `message.buffer` is validated to be one of these (module.lb) -/
def capacities : List Nat := [8, 12, 16, 20, 24, 32, 48, 64]

/-- **C57** `setLength` never reads outside the table and chooses the smallest CAN length that holds the requested number of
bytes, limited to the capacity; the DLC matches; nothing else changes except that lengths above 8 set the FD flag. -/
theorem C57_set_length (capacity : Nat) (hc : capacity ∈ capacities) (m : Message) (n : Nat) :
    ∃ d l, setLength capacity m n = some { m with dlc := d, length := l, fd := if 8 < l then true else m.fd } ∧
      l ∈ fdLengths ∧ l ≤ capacity ∧ min n capacity ≤ l ∧ (∀ x ∈ fdLengths, min n capacity ≤ x → l ≤ x) ∧ fdLengths[d]? = some l := by
  have key : ∀ capacity ∈ capacities, ∀ k ∈ List.range (capacity + 1), ∃ d ∈ List.range 16,
      (if capacity ≤ 8 then some k else (grow k dlcConversionTable 0).bind (shrink capacity)) = some d ∧
      (dlcConversionTable.getD d 0 ∈ fdLengths ∧ dlcConversionTable.getD d 0 ≤ capacity ∧ k ≤ dlcConversionTable.getD d 0 ∧
      (∀ x ∈ fdLengths, k ≤ x → dlcConversionTable.getD d 0 ≤ x) ∧ fdLengths[d]? = some (dlcConversionTable.getD d 0)) ∧
      (d > 8 ↔ 8 < dlcConversionTable.getD d 0) ∧ (capacity ≤ 8 → dlcConversionTable.getD d 0 = k) := by decide +kernel
  have hcap : capacity ≤ 64 := by
    have : ∀ c ∈ capacities, c ≤ 64 := by decide
    exact this _ hc
  obtain ⟨d, -, h1, h2, h3, h4⟩ := key capacity hc (min n capacity) (List.mem_range.mpr (by omega))
  refine ⟨d, dlcConversionTable.getD d 0, ?_, h2⟩
  unfold setLength
  by_cases h8 : capacity ≤ 8
  · rw [if_pos h8] at h1 ⊢
    injection h1 with h1
    have h5 := h4 h8
    have h6 : ¬ 8 < dlcConversionTable.getD d 0 := by rw [h5]; omega
    rw [if_neg h6, h5, ← h1]
  · rw [if_neg h8] at h1 ⊢
    rw [Option.bind_eq_some_iff] at h1
    obtain ⟨g, hg, hs⟩ := h1
    rw [hg, Option.bind_some, setDataLengthCode, hs, Option.map_some]
    by_cases h9 : d > 8
    · rw [if_pos h9, if_pos (h3.mp h9)]
    · rw [if_neg h9, if_neg (fun h => h9 (h3.mpr h))]

example : (Message.make 64 1 13).map (fun m => (m.dlc, m.length, m.fd)) = some (10, 16, true) := by decide

/-- **C57** `setDataLengthCode` with a valid DLC: the longest frame not longer than the DLC says that fits the capacity -/
theorem C57_set_dlc (capacity : Nat) (hc : capacity ∈ capacities) (m : Message) (dlc : Nat) (hd : dlc < 16) :
    ∃ d l, setDataLengthCode capacity m dlc = some { m with dlc := d, length := l, fd := if 8 < l then true else m.fd } ∧
      fdLengths[d]? = some l ∧ l ≤ capacity ∧ d ≤ dlc ∧ (∀ e x, e ≤ dlc → fdLengths[e]? = some x → x ≤ capacity → x ≤ l) := by
  have key : ∀ capacity ∈ capacities, ∀ dlc < 16, ∃ d < 16, shrink capacity dlc = some d ∧ fdLengths[d]? = some (dlcConversionTable.getD d 0) ∧
      dlcConversionTable.getD d 0 ≤ capacity ∧ d ≤ dlc ∧ (∀ e ≤ dlc, ∀ x ∈ fdLengths, fdLengths[e]? = some x → x ≤ capacity → x ≤ dlcConversionTable.getD d 0) ∧
      (d > 8 ↔ 8 < dlcConversionTable.getD d 0) := by decide +kernel
  obtain ⟨d, -, h1, h2, h3, h4, h5, h6⟩ := key capacity hc dlc hd
  refine ⟨d, _, ?_, h2, h3, h4, ?_⟩
  · rw [setDataLengthCode, h1, Option.map_some]
    by_cases h9 : d > 8
    · rw [if_pos h9, if_pos (h6.mp h9)]
    · rw [if_neg h9, if_neg (fun h => h9 (h6.mpr h))]
  · intro e x he hx hxc
    exact h5 e he x (List.mem_of_getElem? hx) hx hxc

/-- a DLC above 15 reads outside the table (a precondition the function does not check) -/
theorem C57_dlc_out_of_range (capacity : Nat) (m : Message) (dlc : Nat) (hd : 16 ≤ dlc) : setDataLengthCode capacity m dlc = none := by
  obtain ⟨k, rfl⟩ : ∃ k, dlc = k + 1 := ⟨dlc - 1, by omega⟩
  unfold setDataLengthCode shrink
  rw [dif_neg (by simp [dlcConversionTable]; omega)]
  rfl

/-- big-endian value -/
def beValue (l : List Byte) : Nat := l.foldl (fun v b => 256 * v + b.toNat) 0

/-- **C57** the constructor from a 64-bit number stores its low `length` bytes, most significant first, and zeros behind them -/
theorem C57_from_number (capacity : Nat) (hc : capacity ∈ capacities) (id : BitVec 32) (n : Nat) (v : BitVec 64) (ext : Bool) :
    ∃ m, Message.make64 capacity id n v ext = some m ∧ m.identifier = id ∧ m.extended = ext ∧ m.rtr = false ∧ m.fd = false ∧
      m.length = min n 8 ∧ m.dlc = min n 8 ∧ m.data.length = capacity ∧
      beValue (m.data.take m.length) = v.toNat % 256 ^ m.length ∧ ∀ b ∈ m.data.drop m.length, b = 0#8 := by
  have hcap : 8 ≤ capacity := by
    have : ∀ c ∈ capacities, 8 ≤ c := by decide
    exact this _ hc
  have key : ∀ capacity ∈ capacities, ∀ k ≤ 8, (if capacity ≤ 8 then some k else (grow (min k capacity) dlcConversionTable 0).bind (shrink capacity)) = some k ∧
      dlcConversionTable.getD k 0 = k := by decide +kernel
  have hmake : Message.make capacity id (min n 8) = some { Message.blank capacity id with dlc := min n 8, length := min n 8 } := by
    obtain ⟨k1, k2⟩ := key capacity hc (min n 8) (by omega)
    unfold Message.make setLength
    by_cases h8 : capacity ≤ 8
    · rw [if_pos h8]
      have : min (min n 8) capacity = min n 8 := by omega
      rw [this]
    · rw [if_neg h8] at k1 ⊢
      rw [Option.bind_eq_some_iff] at k1
      obtain ⟨g, hg, hs⟩ := k1
      rw [hg, Option.bind_some, setDataLengthCode, hs, Option.map_some, k2, if_neg (by omega)]
  unfold Message.make64
  rw [hmake, Option.map_some]
  obtain ⟨r, hr⟩ : ∃ r, capacity = 8 + r := ⟨capacity - 8, by omega⟩
  refine ⟨_, rfl, rfl, rfl, rfl, rfl, rfl, rfl, ?_, ?_⟩
  · simp only [fill]
    have : ∀ (l : List Nat) (f : Nat → Byte) (d : List Byte), (l.foldl (fun d i => d.set i (f i)) d).length = d.length := by
      intro l f
      induction l with
      | nil => intro d; rfl
      | cons x l ih => intro d; rw [List.foldl_cons, ih]; simp
    rw [this]; simp [Message.blank]
  · have hb : (Message.blank capacity id).data = 0#8 :: 0#8 :: 0#8 :: 0#8 :: 0#8 :: 0#8 :: 0#8 :: 0#8 :: List.replicate r 0#8 := by
      unfold Message.blank
      rw [hr, Nat.add_comm]
      rfl
    simp only [hb]
    obtain ⟨k, hk⟩ : ∃ k, k = min n 8 := ⟨_, rfl⟩
    rw [← hk]
    have hk8 : k ≤ 8 := by omega
    have hv := v.isLt
    interval_cases k <;> simp [fill, List.range_succ, beValue, Nat.shiftRight_eq_div_pow] <;> omega

example : (Message.make64 8 0x123 4 0x44ff1a12 false).map (·.data) = some [0x44, 0xff, 0x1a, 0x12, 0, 0, 0, 0] := by decide

/-! ### C58: comparison -/

/-- the 11-bit base identifier, transmitted first -/
def base (m : Message) : Nat := if m.extended then m.identifier.toNat / 2 ^ 18 else m.identifier.toNat

def ValidId (m : Message) : Prop := m.identifier.toNat < if m.extended then 2 ^ 29 else 2 ^ 11

theorem lt_iff (a b : Message) (ha : ValidId a) (hb : ValidId b) :
    a.lt b = true ↔ a.identifier.toNat * (if a.extended then 1 else 2 ^ 18) < b.identifier.toNat * (if b.extended then 1 else 2 ^ 18) := by
  have e : ∀ m : Message, ValidId m → (m.identifier <<< (if m.extended then 0 else 18)).toNat = m.identifier.toNat * (if m.extended then 1 else 2 ^ 18) := by
    intro m hm
    unfold ValidId at hm
    cases h : m.extended
    · rw [h] at hm
      simp only [Bool.false_eq_true, if_false] at hm ⊢
      rw [BitVec.toNat_shiftLeft, Nat.shiftLeft_eq]
      omega
    · simp
  unfold Message.lt
  rw [decide_eq_true_iff, e a ha, e b hb]

/-- **C58** a message with the smaller base identifier (higher bus priority) is less, whatever the frame formats -/
theorem C58_base_decides (a b : Message) (ha : ValidId a) (hb : ValidId b) (h : base a < base b) : a.lt b = true ∧ b.lt a = false := by
  have key : a.identifier.toNat * (if a.extended then 1 else 2 ^ 18) < b.identifier.toNat * (if b.extended then 1 else 2 ^ 18) := by
    unfold base at h
    cases h1 : a.extended <;> cases h2 : b.extended <;> simp only [h1, h2, Bool.false_eq_true, if_true, if_false] at h ⊢ <;> omega
  refine ⟨(lt_iff a b ha hb).mpr key, ?_⟩
  rw [← Bool.not_eq_true, lt_iff b a hb ha]
  omega

/-- **C58** with equal formats the smaller identifier is less; `operator <` is a strict weak order for all messages -/
theorem C58_order (a b c : Message) :
    (a.extended = b.extended → ValidId a → ValidId b → (a.lt b = true ↔ a.identifier.toNat < b.identifier.toNat)) ∧
    a.lt a = false ∧ (a.lt b = true → b.lt c = true → a.lt c = true) ∧
    (a.lt b = false → b.lt c = false → a.lt c = false) := by
  refine ⟨?_, ?_, ?_, ?_⟩
  · intro he ha hb
    rw [lt_iff a b ha hb, he]
    split <;> omega
  all_goals
    unfold Message.lt
    simp only [decide_eq_true_iff, decide_eq_false_iff_not]
    omega

/-- a standard and an extended message with the same base and no further bits are not ordered, though the standard one wins the bus -/
theorem C58_tie : ∃ a b : Message, a.extended = false ∧ b.extended = true ∧ ValidId a ∧ ValidId b ∧ a.lt b = false ∧ b.lt a = false :=
  ⟨{ Message.blank 8 1 with extended := false }, Message.blank 8 (1 <<< 18), by decide, by decide, by unfold ValidId; decide, by unfold ValidId; decide, by decide, by decide⟩

/-- **C58** `operator ==` compares exactly the header fields and the first `length` data bytes; it is an equivalence -/
theorem C58_eq (a b c : Message) :
    (a.eq b = true ↔ a.identifier = b.identifier ∧ a.dlc = b.dlc ∧ a.length = b.length ∧ a.fd = b.fd ∧ a.brs = b.brs ∧ a.rtr = b.rtr ∧
      a.extended = b.extended ∧ ∀ i < a.length, a.data[i]? = b.data[i]?) ∧
    a.eq a = true ∧ (a.eq b = true → b.eq a = true) ∧ (a.eq b = true → b.eq c = true → a.eq c = true) := by
  have key : ∀ a b : Message, (a.eq b = true ↔ a.identifier = b.identifier ∧ a.dlc = b.dlc ∧ a.length = b.length ∧ a.fd = b.fd ∧
      a.brs = b.brs ∧ a.rtr = b.rtr ∧ a.extended = b.extended ∧ ∀ i < a.length, a.data[i]? = b.data[i]?) := by
    intro a b
    have e : a.data.take a.length = b.data.take a.length ↔ ∀ i < a.length, a.data[i]? = b.data[i]? := by
      constructor
      · intro h i hi
        have := congrArg (fun l : List Byte => l[i]?) h
        simpa [List.getElem?_take, hi] using this
      · intro h
        apply List.ext_getElem?
        intro i
        rw [List.getElem?_take, List.getElem?_take]
        split
        · exact h i (by assumption)
        · rfl
    unfold Message.eq
    simp only [Bool.and_eq_true, decide_eq_true_iff, e, and_assoc]
  refine ⟨key a b, (key a a).mpr ⟨rfl, rfl, rfl, rfl, rfl, rfl, rfl, fun _ _ => rfl⟩, ?_, ?_⟩
  · intro h
    obtain ⟨h1, h2, h3, h4, h5, h6, h7, h8⟩ := (key a b).mp h
    exact (key b a).mpr ⟨h1.symm, h2.symm, h3.symm, h4.symm, h5.symm, h6.symm, h7.symm, fun i hi => (h8 i (h3 ▸ hi)).symm⟩
  · intro h h'
    obtain ⟨h1, h2, h3, h4, h5, h6, h7, h8⟩ := (key a b).mp h
    obtain ⟨k1, k2, k3, k4, k5, k6, k7, k8⟩ := (key b c).mp h'
    exact (key a c).mpr ⟨h1.trans k1, h2.trans k2, h3.trans k3, h4.trans k4, h5.trans k5, h6.trans k6, h7.trans k7,
      fun i hi => (h8 i hi).trans (k8 i (h3 ▸ hi))⟩

end Props.Can
