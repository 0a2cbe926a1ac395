import Verif.Lemmas.CanFilter
/-
Claims C143 and C144 about the acceptance filters of the STM32 bxCAN driver.
-/
set_option autoImplicit false
namespace Props.CanFilter
open Modm.CanFilter Spec.CanFilter

private theorem flags_mask_single (fifo : Bool) :
    ((fifoBits fifo ||| MASK_MODE ||| SINGLE_MODE) &&& LIST_MODE != 0#32) = false ∧
    ((fifoBits fifo ||| MASK_MODE ||| SINGLE_MODE) &&& SINGLE_MODE != 0#32) = true ∧
    ((fifoBits fifo ||| MASK_MODE ||| SINGLE_MODE) &&& 1#32 != 0#32) = fifo := by
  cases fifo <;> decide

private theorem flags_list_single (fifo : Bool) :
    ((fifoBits fifo ||| LIST_MODE ||| SINGLE_MODE) &&& LIST_MODE != 0#32) = true ∧
    ((fifoBits fifo ||| LIST_MODE ||| SINGLE_MODE) &&& SINGLE_MODE != 0#32) = true ∧
    ((fifoBits fifo ||| LIST_MODE ||| SINGLE_MODE) &&& 1#32 != 0#32) = fifo := by
  cases fifo <;> decide

private theorem flags_mask_dual (fifo : Bool) :
    ((fifoBits fifo ||| MASK_MODE ||| DUAL_MODE) &&& LIST_MODE != 0#32) = false ∧
    ((fifoBits fifo ||| MASK_MODE ||| DUAL_MODE) &&& SINGLE_MODE != 0#32) = false ∧
    ((fifoBits fifo ||| MASK_MODE ||| DUAL_MODE) &&& 1#32 != 0#32) = fifo := by
  cases fifo <;> decide

private theorem flags_list_dual (fifo : Bool) :
    ((fifoBits fifo ||| LIST_MODE ||| DUAL_MODE) &&& LIST_MODE != 0#32) = true ∧
    ((fifoBits fifo ||| LIST_MODE ||| DUAL_MODE) &&& SINGLE_MODE != 0#32) = false ∧
    ((fifoBits fifo ||| LIST_MODE ||| DUAL_MODE) &&& 1#32 != 0#32) = fifo := by
  cases fifo <;> decide

private theorem rtr_mask (a b m : Bool) :
    BitVec.ofBool a &&& BitVec.ofBool m = BitVec.ofBool b &&& BitVec.ofBool m ↔ (m = true → a = b) := by
  revert a b m; decide

private theorem masked32 (a a' m : BitVec 29) (e e' me t t' mt : Bool) :
    ((a ++ BitVec.ofBool e ++ BitVec.ofBool t ++ 0#1 : BitVec 32) &&& (m ++ BitVec.ofBool me ++ BitVec.ofBool mt ++ 0#1 : BitVec 32) =
      (a' ++ BitVec.ofBool e' ++ BitVec.ofBool t' ++ 0#1 : BitVec 32) &&& (m ++ BitVec.ofBool me ++ BitVec.ofBool mt ++ 0#1 : BitVec 32)) ↔
    a &&& m = a' &&& m ∧ (me = true → e = e') ∧ (mt = true → t = t') := by
  have h : ((a ++ BitVec.ofBool e ++ BitVec.ofBool t ++ 0#1) &&& (m ++ BitVec.ofBool me ++ BitVec.ofBool mt ++ 0#1) =
      (a' ++ BitVec.ofBool e' ++ BitVec.ofBool t' ++ 0#1) &&& (m ++ BitVec.ofBool me ++ BitVec.ofBool mt ++ 0#1)) ↔
      a &&& m = a' &&& m ∧ (me = true → e = e') ∧ (mt = true → t = t') := by
    simp only [BitVec.and_append, append_inj, rtr_mask, and_true, and_assoc]
  exact h

private theorem masked16 (a a' m : BitVec 11) (e e' me t t' mt : Bool) (x x' mx : BitVec 3) :
    ((a ++ BitVec.ofBool t ++ BitVec.ofBool e ++ x : BitVec 16) &&& (m ++ BitVec.ofBool mt ++ BitVec.ofBool me ++ mx : BitVec 16) =
      (a' ++ BitVec.ofBool t' ++ BitVec.ofBool e' ++ x' : BitVec 16) &&& (m ++ BitVec.ofBool mt ++ BitVec.ofBool me ++ mx : BitVec 16)) ↔
    a &&& m = a' &&& m ∧ (mt = true → t = t') ∧ (me = true → e = e') ∧ x &&& mx = x' &&& mx := by
  have h : ((a ++ BitVec.ofBool t ++ BitVec.ofBool e ++ x) &&& (m ++ BitVec.ofBool mt ++ BitVec.ofBool me ++ mx) =
      (a' ++ BitVec.ofBool t' ++ BitVec.ofBool e' ++ x') &&& (m ++ BitVec.ofBool mt ++ BitVec.ofBool me ++ mx)) ↔
      a &&& m = a' &&& m ∧ (mt = true → t = t') ∧ (me = true → e = e') ∧ x &&& mx = x' &&& mx := by
    simp only [BitVec.and_append, append_inj, rtr_mask, and_assoc]
  exact h

private theorem equal16 (a a' : BitVec 11) (e e' t t' : Bool) (x x' : BitVec 3) :
    ((a ++ BitVec.ofBool t ++ BitVec.ofBool e ++ x : BitVec 16) = (a' ++ BitVec.ofBool t' ++ BitVec.ofBool e' ++ x' : BitVec 16)) ↔
    a = a' ∧ t = t' ∧ e = e' ∧ x = x' := by
  have h : ((a ++ BitVec.ofBool t ++ BitVec.ofBool e ++ x) = (a' ++ BitVec.ofBool t' ++ BitVec.ofBool e' ++ x')) ↔
      a = a' ∧ t = t' ∧ e = e' ∧ x = x' := by
    simp only [append_inj, ofBool_inj, and_assoc]
  exact h

private theorem masked_base (a a' m : BitVec 11) (x : BitVec 18) :
    (a ++ x : BitVec 29) &&& (m ++ 0#18 : BitVec 29) = (a' ++ 0#18 : BitVec 29) &&& (m ++ 0#18 : BitVec 29) ↔ a &&& m = a' &&& m := by
  have h : (a ++ x) &&& (m ++ 0#18) = (a' ++ 0#18) &&& (m ++ 0#18) ↔ a &&& m = a' &&& m := by
    simp only [BitVec.and_append, append_inj, BitVec.and_zero, and_true]
  exact h

private theorem masked14 (a a' m : BitVec 11) (x x' mx : BitVec 3) :
    (a ++ x : BitVec 14) &&& (m ++ mx : BitVec 14) = (a' ++ x' : BitVec 14) &&& (m ++ mx : BitVec 14) ↔ a &&& m = a' &&& m ∧ x &&& mx = x' &&& mx := by
  have h : (a ++ x) &&& (m ++ mx) = (a' ++ x') &&& (m ++ mx) ↔ a &&& m = a' &&& m ∧ x &&& mx = x' &&& mx := by
    simp only [BitVec.and_append, append_inj]
  exact h

private theorem equal14 (a a' : BitVec 11) (x x' : BitVec 3) : (a ++ x : BitVec 14) = (a' ++ x' : BitVec 14) ↔ a = a' ∧ x = x' := by
  have h : a ++ x = a' ++ x' ↔ a = a' ∧ x = x' := append_inj
  exact h

/-- **C143.** A mask filter for extended messages lets exactly those frames pass which are extended, have the bits of the
identifier selected by the mask and, if this is to be checked, the remote flag.  They go to the queue asked for; other banks are not changed. -/
theorem C143_extended (r : Regs) (bank : Nat) (hb : bank < 28) (fifo : Bool) (id mask : BitVec 32) (rtr check : Bool) :
    ∃ r', setFilter r bank fifo (extendedIdentifier id rtr) (extendedFilterMask mask check) = some r' ∧
      (∀ f : Frame, accepts r' bank f = true ↔
        f.extended = true ∧ f.id29 &&& low29 mask = low29 id &&& low29 mask ∧ rtrOk check rtr f) ∧
      fifoOf r' bank = fifo ∧ ready r' = true ∧ OthersKept r r' bank := by
  obtain ⟨r', h, h1, h2, ha, hm, hs, hf, hr, ho⟩ :=
    base_spec r bank hb (fifoBits fifo ||| MASK_MODE ||| SINGLE_MODE) (extendedIdentifier id rtr) (extendedFilterMask mask check)
  obtain ⟨f1, f2, f3⟩ := flags_mask_single fifo
  refine ⟨r', h, fun f => ?_, by rw [hf, f3], hr, ho⟩
  simp only [accepts, ha, hm, hs, f1, f2, h1, h2, Bool.true_and, if_true, Bool.false_eq_true, if_false, beq_iff_eq]
  rw [extended_word, extended_mask, word32_id29]
  refine (masked32 _ _ _ _ _ _ _ _ _).trans ⟨?_, ?_⟩
  · rintro ⟨h1, h2, h3⟩; exact ⟨h2 rfl, h1, h3⟩
  · rintro ⟨h1, h2, h3⟩; exact ⟨h2, fun _ => h1, h3⟩

/-- **C143, part.** A mask filter for standard messages lets exactly those standard frames pass which are asked for.  It also lets
extended frames pass, see below. -/
theorem C143_standard_partial (r : Regs) (bank : Nat) (hb : bank < 28) (fifo : Bool) (id mask : BitVec 16) (rtr check : Bool) :
    ∃ r', setFilter r bank fifo (standardIdentifier id rtr) (standardFilterMask mask check) = some r' ∧
      (∀ f : Frame, accepts r' bank f = true ↔ f.base &&& low11 mask = low11 id &&& low11 mask ∧ rtrOk check rtr f) ∧
      fifoOf r' bank = fifo ∧ ready r' = true ∧ OthersKept r r' bank := by
  obtain ⟨r', h, h1, h2, ha, hm, hs, hf, hr, ho⟩ :=
    base_spec r bank hb (fifoBits fifo ||| MASK_MODE ||| SINGLE_MODE) (standardIdentifier id rtr) (standardFilterMask mask check)
  obtain ⟨f1, f2, f3⟩ := flags_mask_single fifo
  refine ⟨r', h, fun f => ?_, by rw [hf, f3], hr, ho⟩
  simp only [accepts, ha, hm, hs, f1, f2, h1, h2, Bool.true_and, if_true, Bool.false_eq_true, if_false, beq_iff_eq]
  rw [standard_word, standard_mask, word32_id29]
  refine (masked32 _ _ _ _ _ _ _ _ _).trans ⟨?_, ?_⟩
  · rintro ⟨h1, -, h3⟩; exact ⟨(masked_base _ _ _ _).1 h1, h3⟩
  · rintro ⟨h1, h3⟩; exact ⟨(masked_base _ _ _ _).2 h1, by simp, h3⟩

/-- Registers after a reset. -/
def reset : Regs := ⟨0x2a1c0e01#32, 0#32, 0#32, 0#32, 0#32, fun _ => 0#32, fun _ => 0#32⟩

/-- **C143, refuted.** A filter for the standard identifier 0x123, every bit of which is to be compared, lets an extended frame
pass, with and without the short form. -/
theorem C143_standard_counterexample :
    (setFilter reset 0 false (standardIdentifier 0x123 false) (standardFilterMask 0x7ff true)).map
      (fun r => accepts r 0 ⟨true, 0x123, 0x2abcd, false⟩) = some true ∧
    (setFilterShort reset 0 false (standardIdentifierShort 0x123 false) (standardFilterMaskShort 0x7ff true)
      (standardIdentifierShort 0x123 false) (standardFilterMaskShort 0x7ff true)).map
      (fun r => accepts r 0 ⟨true, 0x123, 0x2abcd, false⟩) = some true := by
  decide +kernel

/-- One entry of an identifier list: the word and the frame it stands for. -/
inductive Entry : BitVec 32 → Frame → Prop where
  | standard (id : BitVec 16) (rtr : Bool) : Entry (standardIdentifier id rtr) ⟨false, low11 id, 0#18, rtr⟩
  | extended (id : BitVec 32) (rtr : Bool) :
      Entry (extendedIdentifier id rtr) ⟨true, (low29 id).extractLsb' 18 11, (low29 id).extractLsb' 0 18, rtr⟩

private theorem split29 (x : BitVec 29) : x.extractLsb' 18 11 ++ x.extractLsb' 0 18 = x := by
  apply BitVec.eq_of_getLsbD_eq; intro i hi
  simp only [BitVec.getLsbD_append, BitVec.getLsbD_extractLsb']
  by_cases h : i < 18
  · simp [h]
  · rw [if_neg h]
    have : i - 18 < 11 := by omega
    simp [this, (by omega : 18 + (i - 18) = i)]

private theorem entry_word {w : BitVec 32} {g : Frame} (h : Entry w g) : w = g.word32 := by
  cases h with
  | standard id rtr => exact standard_word id rtr
  | extended id rtr => rw [extended_word, word32_id29, Frame.id29]; simp only [split29]

private theorem word32_inj {f g : Frame} : f.word32 = g.word32 ↔ f = g := by
  constructor
  · intro h
    obtain ⟨e1, b1, x1, t1⟩ := f; obtain ⟨e2, b2, x2, t2⟩ := g
    have h' : b1 ++ x1 ++ BitVec.ofBool e1 ++ BitVec.ofBool t1 ++ 0#1 = b2 ++ x2 ++ BitVec.ofBool e2 ++ BitVec.ofBool t2 ++ 0#1 := h
    simp only [append_inj, ofBool_inj, and_true] at h'
    obtain ⟨⟨⟨rfl, rfl⟩, rfl⟩, rfl⟩ := h'; rfl
  · rintro rfl; rfl

/-- **C143.** An identifier list of two entries, each standard or extended, lets exactly these two frames pass. -/
theorem C143_list (r : Regs) (bank : Nat) (hb : bank < 28) (fifo : Bool) {w1 w2 : BitVec 32} {g1 g2 : Frame} (h1 : Entry w1 g1) (h2 : Entry w2 g2) :
    ∃ r', setIdentifierFilter r bank fifo w1 w2 = some r' ∧ (∀ f : Frame, accepts r' bank f = true ↔ f = g1 ∨ f = g2) ∧
      fifoOf r' bank = fifo ∧ ready r' = true ∧ OthersKept r r' bank := by
  obtain ⟨r', h, e1, e2, ha, hm, hs, hf, hr, ho⟩ := base_spec r bank hb (fifoBits fifo ||| LIST_MODE ||| SINGLE_MODE) w1 w2
  obtain ⟨f1, f2, f3⟩ := flags_list_single fifo
  refine ⟨r', h, fun f => ?_, by rw [hf, f3], hr, ho⟩
  simp only [accepts, ha, hm, hs, f1, f2, e1, e2, Bool.true_and, if_true, beq_iff_eq, Bool.or_eq_true]
  rw [entry_word h1, entry_word h2, word32_inj, word32_inj]

/-- What one half of a short mask filter is to let pass: only the first 14 bits of an extended identifier count. -/
inductive Half : BitVec 16 → BitVec 16 → (Frame → Prop) → Prop where
  | standard (id mask : BitVec 16) (rtr check : Bool) :
      Half (standardIdentifierShort id rtr) (standardFilterMaskShort mask check)
        (fun f => f.base &&& low11 mask = low11 id &&& low11 mask ∧ rtrOk check rtr f)
  | extended (id mask : BitVec 32) (rtr check : Bool) (hid : id &&& 0x380000#32 = 0#32) (hmask : mask &&& 0x380000#32 = 0#32) :
      Half (extendedIdentifierShort id rtr) (extendedFilterMaskShort mask check)
        (fun f => f.extended = true ∧ top14 f.id29 &&& top14 (low29 mask) = top14 (low29 id) &&& top14 (low29 mask) ∧ rtrOk check rtr f)

private theorem half_match {w m : BitVec 16} {p : Frame → Prop} (h : Half w m p) (f : Frame) : f.word16 &&& m = w &&& m ↔ p f := by
  cases h with
  | standard id mask rtr check =>
    rw [standard_short, standard_mask_short, word16_top]
    refine (masked16 _ _ _ _ _ _ _ _ _ _ _ _).trans ⟨?_, ?_⟩
    · rintro ⟨h1, h2, -, -⟩; exact ⟨h1, h2⟩
    · rintro ⟨h1, h2⟩; exact ⟨h1, h2, by simp, by simp⟩
  | extended id mask rtr check hid hmask =>
    have hm : extendedFilterMaskShort mask check = _ := extended_short mask check hmask
    beta_reduce
    rw [extended_short id rtr hid, hm, word16_top, top14_eq, top14_eq, top14_eq, (id29_top f).1, (id29_top f).2]
    refine (masked16 _ _ _ _ _ _ _ _ _ _ _ _).trans ⟨?_, ?_⟩
    · rintro ⟨h1, h2, h3, h4⟩; exact ⟨h3 rfl, (masked14 _ _ _ _ _ _).2 ⟨h1, h4⟩, h2⟩
    · rintro ⟨h1, h2, h4⟩
      have h2 := (masked14 _ _ _ _ _ _).1 h2
      exact ⟨h2.1, h4, fun _ => h1, h2.2⟩

/-- **C143, part.** Two short mask filters, if bits 19 to 21 of extended identifiers and masks are not set. -/
theorem C143_short_partial (r : Regs) (bank : Nat) (hb : bank < 28) (fifo : Bool) {w1 m1 w2 m2 : BitVec 16} {p1 p2 : Frame → Prop}
    (h1 : Half w1 m1 p1) (h2 : Half w2 m2 p2) :
    ∃ r', setFilterShort r bank fifo w1 m1 w2 m2 = some r' ∧ (∀ f : Frame, accepts r' bank f = true ↔ p1 f ∨ p2 f) ∧
      fifoOf r' bank = fifo ∧ ready r' = true ∧ OthersKept r r' bank := by
  obtain ⟨r', h, e1, e2, ha, hm, hs, hf, hr, ho⟩ := base_spec r bank hb (fifoBits fifo ||| MASK_MODE ||| DUAL_MODE)
    (w1.setWidth 32 ||| (m1.setWidth 32 <<< 16)) (w2.setWidth 32 ||| (m2.setWidth 32 <<< 16))
  obtain ⟨f1, f2, f3⟩ := flags_mask_dual fifo
  refine ⟨r', h, fun f => ?_, by rw [hf, f3], hr, ho⟩
  simp only [accepts, ha, hm, hs, f1, f2, e1, e2, Bool.true_and, Bool.false_eq_true, if_false, beq_iff_eq, Bool.or_eq_true]
  rw [(halves w1 m1).1, (halves w1 m1).2, (halves w2 m2).1, (halves w2 m2).2, half_match h1, half_match h2]

/-- One entry of a short identifier list and the frames it stands for. -/
inductive Short : BitVec 16 → (Frame → Prop) → Prop where
  | standard (id : BitVec 16) (rtr : Bool) :
      Short (standardIdentifierShort id rtr) (fun f => f.extended = false ∧ f.base = low11 id ∧ f.rtr = rtr)
  | extended (id : BitVec 32) (rtr : Bool) (hid : id &&& 0x380000#32 = 0#32) :
      Short (extendedIdentifierShort id rtr) (fun f => f.extended = true ∧ top14 f.id29 = top14 (low29 id) ∧ f.rtr = rtr)

private theorem short_match {w : BitVec 16} {p : Frame → Prop} (h : Short w p) {f : Frame} (hf : f.Valid) : f.word16 = w ↔ p f := by
  cases h with
  | standard id rtr =>
    rw [standard_short, word16_top]
    refine (equal16 _ _ _ _ _ _ _ _).trans ⟨?_, ?_⟩
    · rintro ⟨h1, h2, h3, h4⟩; exact ⟨h3, h1, h2⟩
    · rintro ⟨h1, h2, h3⟩
      refine ⟨h2, h3, h1, ?_⟩
      rw [hf h1]; decide
  | extended id rtr hid =>
    beta_reduce
    rw [extended_short id rtr hid, word16_top, top14_eq, top14_eq, (id29_top f).1, (id29_top f).2]
    refine (equal16 _ _ _ _ _ _ _ _).trans ⟨?_, ?_⟩
    · rintro ⟨h1, h2, h3, h4⟩; exact ⟨h3, (equal14 _ _ _ _).2 ⟨h1, h4⟩, h2⟩
    · rintro ⟨h1, h2, h4⟩
      have h2 := (equal14 _ _ _ _).1 h2
      exact ⟨h2.1, h4, h1, h2.2⟩

/-- **C143, part.** A short identifier list of four entries, if bits 19 to 21 of extended identifiers are not set. -/
theorem C143_short_list_partial (r : Regs) (bank : Nat) (hb : bank < 28) (fifo : Bool) {w1 w2 w3 w4 : BitVec 16} {p1 p2 p3 p4 : Frame → Prop}
    (h1 : Short w1 p1) (h2 : Short w2 p2) (h3 : Short w3 p3) (h4 : Short w4 p4) :
    ∃ r', setIdentifierFilterShort r bank fifo w1 w2 w3 w4 = some r' ∧
      (∀ f : Frame, f.Valid → (accepts r' bank f = true ↔ p1 f ∨ p2 f ∨ p3 f ∨ p4 f)) ∧
      fifoOf r' bank = fifo ∧ ready r' = true ∧ OthersKept r r' bank := by
  obtain ⟨r', h, e1, e2, ha, hm, hs, hf, hr, ho⟩ := base_spec r bank hb (fifoBits fifo ||| LIST_MODE ||| DUAL_MODE)
    (w1.setWidth 32 ||| (w2.setWidth 32 <<< 16)) (w3.setWidth 32 ||| (w4.setWidth 32 <<< 16))
  obtain ⟨f1, f2, f3⟩ := flags_list_dual fifo
  refine ⟨r', h, fun f hv => ?_, by rw [hf, f3], hr, ho⟩
  simp only [accepts, ha, hm, hs, f1, f2, e1, e2, Bool.true_and, Bool.false_eq_true, if_false, if_true, beq_iff_eq, Bool.or_eq_true]
  rw [(halves w1 w2).1, (halves w1 w2).2, (halves w3 w4).1, (halves w3 w4).2, short_match h1 hv, short_match h2 hv, short_match h3 hv,
    short_match h4 hv]
  simp only [or_assoc]

/-- **C143, refuted.** The short form mixes bits 19 to 21 of an extended identifier into the wrong places: with the list of 0x00080000 alone a data frame with this
identifier does not pass; a filter for 0x00100000 does not let it pass but 0x00140000. -/
theorem C143_short_counterexample :
    (setIdentifierFilterShort reset 0 false (extendedIdentifierShort 0x00080000 false) (extendedIdentifierShort 0x00080000 false)
      (extendedIdentifierShort 0x00080000 false) (extendedIdentifierShort 0x00080000 false)).map
      (fun r => accepts r 0 ⟨true, 0x2, 0#18, false⟩) = some false ∧
    (setIdentifierFilterShort reset 0 false (extendedIdentifierShort 0x00100000 false) (extendedIdentifierShort 0x00100000 false)
      (extendedIdentifierShort 0x00100000 false) (extendedIdentifierShort 0x00100000 false)).map
      (fun r => (accepts r 0 ⟨true, 0x4, 0#18, false⟩, accepts r 0 ⟨true, 0x5, 0#18, false⟩)) = some (false, true) := by
  decide +kernel

/-- **C144.** A disabled bank lets nothing pass, other banks are not changed. -/
theorem C144_disable (r : Regs) (bank : Nat) (hb : bank < 28) :
    ∃ r', disableFilter r bank = some r' ∧ (∀ f, accepts r' bank f = false) ∧ ready r' = true ∧ OthersKept r r' bank := by
  have hmask : ∀ i, i < 32 → (r.fa1r &&& ~~~(1#32 <<< bank)).getLsbD i = if i = bank then false else r.fa1r.getLsbD i := by
    intro i hi
    exact assign_bit r.fa1r false bank i hi (by omega)
  refine ⟨_, by rw [disableFilter, if_pos (by omega)], ?_, by simp [ready, FINIT], ?_, ?_⟩
  · intro f
    simp only [accepts, hmask bank (by omega), if_true, Bool.false_and]
  · obtain ⟨r', h, -, -, -, -, -, -, -, ho⟩ := base_spec r bank hb 0#32 0#32 0#32
    rw [setFilterBase, if_pos hb] at h
    cases h
    exact ho.1
  · intro b' hne hb'
    refine ⟨fun f => ?_, rfl⟩
    simp only [accepts, hmask b' (by omega), if_neg hne]

/-- **C144.** The first bank of the second controller is as set, the banks are not changed. -/
theorem C144_start (r : Regs) (n : Nat) (hn : n < 64) :
    startBank (setStartFilterBankForCan2 r n) = n ∧ ready (setStartFilterBankForCan2 r n) = true ∧
    ∀ b, (∀ f, accepts (setStartFilterBankForCan2 r n) b f = accepts r b f) ∧ fifoOf (setStartFilterBankForCan2 r n) b = fifoOf r b := by
  refine ⟨?_, by simp [ready, setStartFilterBankForCan2, FINIT], fun b => ⟨fun f => rfl, rfl⟩⟩
  unfold startBank setStartFilterBankForCan2
  have : ((((((r.fmr ||| FINIT) &&& ~~~CAN2SB_Msk) ||| (BitVec.ofNat 32 n <<< 8)) &&& ~~~FINIT) >>> 8) &&& 0x3f#32) = BitVec.ofNat 32 n := by
    have hx : ∀ j, 6 ≤ j → (BitVec.ofNat 32 n).getLsbD j = false := fun j hj => by
      rw [BitVec.getLsbD_ofNat, Nat.testBit_lt_two_pow (Nat.lt_of_lt_of_le hn (Nat.pow_le_pow_right (by omega) hj : 2 ^ 6 ≤ 2 ^ j)), Bool.and_false]
    generalize BitVec.ofNat 32 n = x at hx ⊢
    apply BitVec.eq_of_getLsbD_eq; intro i hi
    simp only [BitVec.getLsbD_and, BitVec.getLsbD_or, BitVec.getLsbD_not, BitVec.getLsbD_ushiftRight, BitVec.getLsbD_shiftLeft, FINIT, CAN2SB_Msk]
    by_cases h6 : 6 ≤ i
    · rw [hx i h6, hx (8 + i - 8) (by omega)]
      interval_cases i <;> simp
    · have h6' : i < 6 := by omega
      interval_cases i <;> simp
  rw [this, BitVec.toNat_ofNat]
  exact Nat.mod_eq_of_lt (by omega)

/-! ### Cases -/

example : (setFilter reset 3 true (extendedIdentifier 0x12345678 false) (extendedFilterMask 0x1ffff000 true)).map
    (fun r => (accepts r 3 ⟨true, 0x48d, 0x05abc, false⟩, accepts r 3 ⟨true, 0x48d, 0x15abc, false⟩, accepts r 3 ⟨true, 0x48d, 0x05abc, true⟩,
      fifoOf r 3)) = some (true, false, false, true) := by decide +kernel

example : Entry (standardIdentifier 0x123 true) ⟨false, 0x123, 0#18, true⟩ := .standard 0x123 true
example : Entry (extendedIdentifier 0x12345678 false) ⟨true, 0x48d, 0x5678, false⟩ := .extended 0x12345678 false
example : (setIdentifierFilter reset 27 false (standardIdentifier 0x123 true) (extendedIdentifier 0x12345678 false)).map
    (fun r => (accepts r 27 ⟨false, 0x123, 0#18, true⟩, accepts r 27 ⟨true, 0x48d, 0x5678, false⟩, accepts r 27 ⟨false, 0x123, 0#18, false⟩)) =
    some (true, true, false) := by decide +kernel
example : (0x1fc38000 : BitVec 32) &&& 0x380000#32 = 0#32 := by decide
example : (setFilterShort reset 5 false (standardIdentifierShort 0x123 false) (standardFilterMaskShort 0x7f0 true)
    (extendedIdentifierShort 0x12408000 false) (extendedFilterMaskShort 0x1fc38000 true)).map
    (fun r => (accepts r 5 ⟨false, 0x12f, 0#18, false⟩, accepts r 5 ⟨true, 0x490, 0x08abc, false⟩, accepts r 5 ⟨true, 0x490, 0x10abc, false⟩)) =
    some (true, true, false) := by decide +kernel
example : startBank (setStartFilterBankForCan2 reset 20) = 20 ∧ startBank reset = 14 := by decide

end Props.CanFilter
