import Verif.Spec.CanFrame
import Mathlib.Tactic.IntervalCases
import Mathlib.Tactic.SplitIfs
set_option autoImplicit false
/- Lemmas for C151-C155. -/
namespace Modm.CanFrame
open Modm.Can Spec.CanFrame
open Modm.Sab (Byte)

theorem byte0 (a b c d : Byte) : (word a b c d).extractLsb' 0 8 = a := by
  apply BitVec.eq_of_getLsbD_eq; intro i hi; simp only [word, BitVec.getLsbD_extractLsb', BitVec.getLsbD_append]; interval_cases i <;> simp
theorem byte1 (a b c d : Byte) : (word a b c d).extractLsb' 8 8 = b := by
  apply BitVec.eq_of_getLsbD_eq; intro i hi; simp only [word, BitVec.getLsbD_extractLsb', BitVec.getLsbD_append]; interval_cases i <;> simp
theorem byte2 (a b c d : Byte) : (word a b c d).extractLsb' 16 8 = c := by
  apply BitVec.eq_of_getLsbD_eq; intro i hi; simp only [word, BitVec.getLsbD_extractLsb', BitVec.getLsbD_append]; interval_cases i <;> simp
theorem byte3 (a b c d : Byte) : (word a b c d).extractLsb' 24 8 = d := by
  apply BitVec.eq_of_getLsbD_eq; intro i hi; simp only [word, BitVec.getLsbD_extractLsb', BitVec.getLsbD_append]; interval_cases i <;> simp

theorem bytes_eq (w : BitVec 32) : bytes w = (List.range 4).map fun i => w.extractLsb' (8 * i) 8 := by
  have h : (List.range 4) = [0, 1, 2, 3] := by decide
  rw [h]
  simp only [bytes, List.map_cons, List.map_nil, List.cons.injEq, and_true]
  refine ⟨?_, ?_, ?_, ?_⟩ <;>
  · apply BitVec.eq_of_getLsbD_eq; intro i hi; interval_cases i <;> simp

theorem bytes_word (a b c d : Byte) : bytes (word a b c d) = [a, b, c, d] := by
  rw [bytes_eq]
  have h : (List.range 4) = [0, 1, 2, 3] := by decide
  rw [h]
  simp [byte0, byte1, byte2, byte3]

theorem std_id {x : BitVec 32} (h : x.toNat < 2 ^ 11) : ∃ y : BitVec 11, x = y.setWidth 32 :=
  ⟨x.setWidth 11, by apply BitVec.eq_of_toNat_eq; simp; omega⟩

theorem ext_id {x : BitVec 32} (h : x.toNat < 2 ^ 29) : ∃ y : BitVec 29, x = y.setWidth 32 :=
  ⟨x.setWidth 29, by apply BitVec.eq_of_toNat_eq; simp; omega⟩

theorem proper_id {capacity : Nat} {m : Message} (h : Proper capacity m) : m.identifier = (m.identifier.setWidth 29).setWidth 32 := by
  have := h.id
  apply BitVec.eq_of_toNat_eq
  simp
  split at this <;> omega

/-- `setDataLengthCode` with a length that fits -/
theorem setDlc {capacity : Nat} (m : Message) {d : Nat} (hd : d ≤ 15) (hf : fdLength d ≤ capacity) :
    setDataLengthCode capacity m d = some { m with dlc := d, length := fdLength d, fd := if d > 8 then true else m.fd } := by
  interval_cases d <;> simp [fdLength] at hf <;>
    simp [setDataLengthCode, shrink, dlcConversionTable, fdLength, hf]
  all_goals omega

/-- the same up to 8 bytes -/
theorem setDlc8 {capacity : Nat} (m : Message) {d : Nat} (hd : d ≤ 8) (hc : 8 ≤ capacity) :
    setDataLengthCode capacity m d = some { m with dlc := d, length := d } := by
  have h : fdLength d = d := by simp [fdLength, hd]
  rw [setDlc m (by omega) (by omega), h, if_neg (by omega)]

theorem copy_eq {n : Nat} {src dst : List Byte} (h1 : n ≤ src.length) (h2 : n ≤ dst.length) :
    copy n src dst = some (src.take n ++ dst.drop n) := by
  induction n generalizing src dst with
  | zero => simp [copy]
  | succ n ih =>
    match src, dst, h1, h2 with
    | x :: src, y :: dst, h1, h2 =>
      simp only [List.length_cons, Nat.add_le_add_iff_right] at h1 h2
      simp [copy, ih h1 h2]

theorem copy_none {n : Nat} {src dst : List Byte} (h : dst.length < n) : copy n src dst = Option.none := by
  induction n generalizing src dst with
  | zero => omega
  | succ n ih =>
    match src, dst with
    | [], _ => simp [copy]
    | _ :: _, [] => simp [copy]
    | x :: src, y :: dst =>
      simp only [List.length_cons, Nat.add_lt_add_iff_right] at h
      simp [copy, ih h]

theorem packWords_eq {n : Nat} {data : List Byte} (h : 4 * n ≤ data.length) :
    ∃ ws, packWords n data = some ws ∧ wordBytes ws = data.take (4 * n) := by
  induction n generalizing data with
  | zero => exact ⟨[], by simp [packWords, wordBytes]⟩
  | succ n ih =>
    match data, h with
    | a :: b :: c :: d :: rest, h =>
      simp only [List.length_cons] at h
      obtain ⟨ws, h1, h2⟩ := ih (data := rest) (by omega)
      refine ⟨word a b c d :: ws, by simp [packWords, h1], ?_⟩
      have : 4 * (n + 1) = 4 * n + 1 + 1 + 1 + 1 := by omega
      rw [this]
      simp only [List.take_succ_cons, ← h2]
      simp only [wordBytes, List.flatMap_cons]
      rw [← bytes_eq, bytes_word]
      rfl
    | [], h => simp at h
    | [_], h => simp at h; omega
    | [_, _], h => simp at h; omega
    | [_, _, _], h => simp at h; omega

theorem wordBytes_length (ws : List (BitVec 32)) : (wordBytes ws).length = 4 * ws.length := by
  induction ws with
  | nil => rfl
  | cons w ws ih => simp only [wordBytes, List.flatMap_cons, List.length_append, List.length_map, List.length_range] at ih ⊢; simp [ih]; omega

theorem unpackWords_eq {n : Nat} {ws : List (BitVec 32)} {data : List Byte} (h1 : n ≤ ws.length) (h2 : 4 * n ≤ data.length) :
    unpackWords n ws data = some ((wordBytes ws).take (4 * n) ++ data.drop (4 * n)) := by
  induction n generalizing ws data with
  | zero => simp [unpackWords]
  | succ n ih =>
    match ws, data, h1, h2 with
    | w :: ws, a :: b :: c :: d :: rest, h1, h2 =>
      simp only [List.length_cons] at h1 h2
      have : 4 * (n + 1) = 4 * n + 1 + 1 + 1 + 1 := by omega
      rw [this]
      have hw : wordBytes (w :: ws) = bytes w ++ wordBytes ws := by simp [wordBytes, bytes_eq]
      simp [unpackWords, ih (ws := ws) (data := rest) (by omega) (by omega), hw, bytes]
    | _ :: _, [], _, h => simp at h
    | _ :: _, [_], _, h => simp at h; omega
    | _ :: _, [_, _], _, h => simp at h; omega
    | _ :: _, [_, _, _], _, h => simp at h; omega
    | [], _, h, _ => simp at h

theorem fdLength_le {d : Nat} : fdLength d ≤ 64 := by unfold fdLength; split_ifs <;> omega
theorem fdLength_small {d : Nat} (h : d ≤ 8) : fdLength d = d := by simp [fdLength, h]

theorem wordCount_ge {n : Nat} (h : n ≤ 64) : n ≤ 4 * wordCount n := by unfold wordCount; omega
theorem wordCount_le {n c : Nat} (h : n ≤ c) (hc : c % 4 = 0) : 4 * wordCount n ≤ c := by unfold wordCount; omega
theorem wordCount_16 (n : Nat) : wordCount n ≤ 16 := by unfold wordCount; omega

/-- A message which tells everything about the frame of another one compares equal to it. -/
theorem tells_eq {capacity : Nat} {m m' : Message} (hm : Proper capacity m) (hr : m.rtr = false) (h : Tells m' (frameOf m)) :
    m'.eq m = true := by
  have hid := h.id
  simp only [frameOf] at hid
  rw [← proper_id hm] at hid
  have hlen : m'.length = m.length := by
    rw [h.length, hm.length]
    have := hm.fd
    by_cases hd : m.dlc > 8
    · simp [frameOf, payload, this hd]
    · rw [fdLength_small (by omega)]
      show payload false m.fd m.dlc = m.dlc
      simp only [payload, Bool.false_eq_true, if_false]
      by_cases hf : m.fd = true
      · rw [if_pos hf, fdLength_small (by omega)]
      · rw [if_neg hf]; omega
  have hdata := h.data hr
  simp only [frameOf, hr, Bool.false_eq_true, if_false, hlen] at hdata
  have h1 := h.extended; have h2 := h.rtr; have h3 := h.fd; have h4 := h.brs; have h5 := h.dlc
  simp only [frameOf] at h1 h2 h3 h4 h5
  simp [Message.eq, hid, h1, h2, h3, h4, h5, hlen, hdata]

end Modm.CanFrame
