import Verif.Spec.CanFilter
import Mathlib.Tactic.IntervalCases
/-
The words of the filters as concatenations of their fields, and what a bank lets pass after it has been set.
-/
set_option autoImplicit false
namespace Modm.CanFilter
open Spec.CanFilter

theorem append_inj {m n : Nat} {a b : BitVec m} {c d : BitVec n} : a ++ c = b ++ d ↔ a = b ∧ c = d := by
  constructor
  · intro h
    constructor
    · have := congrArg (fun x => BitVec.extractLsb' n m x) h
      simpa only [BitVec.extractLsb'_append_eq_left] using this
    · have := congrArg (fun x => BitVec.setWidth n x) h
      simpa only [BitVec.setWidth_append_eq_right] using this
  · rintro ⟨rfl, rfl⟩; rfl

theorem ofBool_and (a b : Bool) : BitVec.ofBool a &&& BitVec.ofBool b = BitVec.ofBool (a && b) := by
  revert a b; decide

theorem ofBool_inj {a b : Bool} : BitVec.ofBool a = BitVec.ofBool b ↔ a = b := by
  revert a b; decide

theorem word32_id29 (f : Frame) : f.word32 = f.id29 ++ BitVec.ofBool f.extended ++ BitVec.ofBool f.rtr ++ 0#1 := rfl

theorem word16_top (f : Frame) :
    f.word16 = f.base ++ BitVec.ofBool f.rtr ++ BitVec.ofBool f.extended ++ f.ext.extractLsb' 15 3 := rfl

theorem extended_word (id : BitVec 32) (rtr : Bool) :
    extendedIdentifier id rtr = low29 id ++ BitVec.ofBool true ++ BitVec.ofBool rtr ++ 0#1 := by
  apply BitVec.eq_of_getLsbD_eq; intro i hi
  simp only [extendedIdentifier, low29, BitVec.getLsbD_or, BitVec.getLsbD_append, BitVec.getLsbD_shiftLeft, BitVec.getLsbD_setWidth]
  cases rtr <;> interval_cases i <;> simp

theorem extended_mask (id : BitVec 32) (rtr : Bool) :
    extendedFilterMask id rtr = low29 id ++ BitVec.ofBool true ++ BitVec.ofBool rtr ++ 0#1 := extended_word id rtr

theorem standard_word (id : BitVec 16) (rtr : Bool) :
    standardIdentifier id rtr = low11 id ++ 0#18 ++ BitVec.ofBool false ++ BitVec.ofBool rtr ++ 0#1 := by
  apply BitVec.eq_of_getLsbD_eq; intro i hi
  simp only [standardIdentifier, low11, BitVec.getLsbD_or, BitVec.getLsbD_append, BitVec.getLsbD_shiftLeft, BitVec.getLsbD_setWidth]
  cases rtr <;> interval_cases i <;> simp

theorem standard_mask (id : BitVec 16) (rtr : Bool) :
    standardFilterMask id rtr = low11 id ++ 0#18 ++ BitVec.ofBool false ++ BitVec.ofBool rtr ++ 0#1 := standard_word id rtr

theorem standard_short (id : BitVec 16) (rtr : Bool) :
    standardIdentifierShort id rtr = low11 id ++ BitVec.ofBool rtr ++ BitVec.ofBool false ++ 0#3 := by
  apply BitVec.eq_of_getLsbD_eq; intro i hi
  simp only [standardIdentifierShort, low11, BitVec.getLsbD_or, BitVec.getLsbD_and, BitVec.getLsbD_append, BitVec.getLsbD_shiftLeft, BitVec.getLsbD_setWidth]
  cases rtr <;> interval_cases i <;> simp

theorem standard_mask_short (id : BitVec 16) (rtr : Bool) :
    standardFilterMaskShort id rtr = low11 id ++ BitVec.ofBool rtr ++ BitVec.ofBool false ++ 0#3 := standard_short id rtr

/-- The word of a short extended identifier if bits 19 to 21 are not set. -/
theorem extended_short (id : BitVec 32) (rtr : Bool) (h : id &&& 0x380000#32 = 0#32) :
    extendedIdentifierShort id rtr =
      (low29 id).extractLsb' 18 11 ++ BitVec.ofBool rtr ++ BitVec.ofBool true ++ (low29 id).extractLsb' 15 3 := by
  have hb : ∀ j, (id &&& 0x380000#32).getLsbD j = false := by intro j; rw [h]; simp
  have h19 := hb 19; have h20 := hb 20; have h21 := hb 21
  simp at h19 h20 h21
  apply BitVec.eq_of_getLsbD_eq; intro i hi
  simp only [extendedIdentifierShort, low29, BitVec.getLsbD_or, BitVec.getLsbD_and, BitVec.getLsbD_append, BitVec.getLsbD_ushiftRight,
    BitVec.getLsbD_setWidth, BitVec.getLsbD_extractLsb']
  cases rtr <;> interval_cases i <;> simp [h19, h20, h21]

theorem id29_top (f : Frame) : f.id29.extractLsb' 18 11 = f.base ∧ f.id29.extractLsb' 15 3 = f.ext.extractLsb' 15 3 := by
  constructor
  · exact BitVec.extractLsb'_append_eq_left
  · apply BitVec.eq_of_getLsbD_eq; intro i hi
    simp only [Frame.id29, BitVec.getLsbD_append, BitVec.getLsbD_extractLsb']
    interval_cases i <;> simp

theorem top14_eq (x : BitVec 29) : top14 x = x.extractLsb' 18 11 ++ x.extractLsb' 15 3 := by
  apply BitVec.eq_of_getLsbD_eq; intro i hi
  simp only [top14, BitVec.getLsbD_append, BitVec.getLsbD_extractLsb']
  interval_cases i <;> simp

theorem halves (a b : BitVec 16) :
    (a.setWidth 32 ||| (b.setWidth 32 <<< 16)).setWidth 16 = a ∧
    ((a.setWidth 32 ||| (b.setWidth 32 <<< 16)) >>> 16).setWidth 16 = b := by
  constructor <;>
  · apply BitVec.eq_of_getLsbD_eq; intro i hi
    simp only [BitVec.getLsbD_or, BitVec.getLsbD_setWidth, BitVec.getLsbD_shiftLeft, BitVec.getLsbD_ushiftRight]
    interval_cases i <;> simp

theorem one_shift (b i : Nat) (hi : i < 32) (hb : b < 32) : (1#32 <<< b).getLsbD i = decide (i = b) := by
  rw [BitVec.getLsbD_shiftLeft]
  by_cases h : i = b
  · subst h; simp [hi]
  · by_cases hlt : i < b
    · simp [hlt, h]
    · have : (1#32).getLsbD (i - b) = false := by
        rw [BitVec.getLsbD_one]; simp; omega
      simp [this, h]

theorem assign_bit (reg : BitVec 32) (on : Bool) (b i : Nat) (hi : i < 32) (hb : b < 32) :
    (assign reg (1#32 <<< b) on).getLsbD i = if i = b then on else reg.getLsbD i := by
  unfold assign
  cases on
  · simp only [Bool.false_eq_true, if_false, BitVec.getLsbD_and, BitVec.getLsbD_not, one_shift b i hi hb]
    by_cases h : i = b <;> simp [h, hi, hb]
  · simp only [if_true, BitVec.getLsbD_or, one_shift b i hi hb]
    by_cases h : i = b <;> simp [h]

/-- The part of the bank register which a bank gets. -/
theorem base_spec (r : Regs) (bank : Nat) (hb : bank < 28) (flags fr1 fr2 : BitVec 32) :
    ∃ r', setFilterBase r bank flags fr1 fr2 = some r' ∧ r'.fr1 bank = fr1 ∧ r'.fr2 bank = fr2 ∧
      r'.fa1r.getLsbD bank = true ∧ r'.fm1r.getLsbD bank = (flags &&& LIST_MODE != 0#32) ∧
      r'.fs1r.getLsbD bank = (flags &&& SINGLE_MODE != 0#32) ∧ fifoOf r' bank = (flags &&& 1#32 != 0#32) ∧
      ready r' = true ∧ OthersKept r r' bank := by
  refine ⟨_, by rw [setFilterBase, if_pos hb], by simp, by simp, ?_, ?_, ?_, ?_, ?_, ?_, ?_⟩
  · simp [one_shift bank bank (by omega) (by omega)]
  · simp [assign_bit _ _ bank bank (by omega) (by omega)]
  · simp [assign_bit _ _ bank bank (by omega) (by omega)]
  · simp [fifoOf, assign_bit _ _ bank bank (by omega) (by omega)]
  · simp [ready, FINIT]
  · unfold startBank
    refine congrArg BitVec.toNat ?_
    apply BitVec.eq_of_getLsbD_eq; intro i hi
    simp only [BitVec.getLsbD_and, BitVec.getLsbD_or, BitVec.getLsbD_ushiftRight, BitVec.getLsbD_not, FINIT]
    have : (1#32).getLsbD (8 + i) = false := by rw [BitVec.getLsbD_one]; simp
    simp only [this]
    by_cases h : 8 + i < 32
    · simp [h]
    · have h2 : (0x3f#32).getLsbD i = false := by interval_cases i <;> first | rfl | omega
      simp [h2]
  · intro b' hne hb'
    refine ⟨fun f => ?_, ?_⟩
    · unfold accepts
      simp only [assign_bit _ _ bank b' (by omega) (by omega), BitVec.getLsbD_or, BitVec.getLsbD_and, BitVec.getLsbD_not,
        one_shift bank b' (by omega) (by omega), hne, if_false, decide_false, Bool.not_false, Bool.and_true, Bool.or_false,
        (by omega : b' < 32), decide_true]
    · simp [fifoOf, assign_bit _ _ bank b' (by omega) (by omega), hne]

end Modm.CanFilter
