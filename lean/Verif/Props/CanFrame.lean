import Verif.Lemmas.CanFrame
import Mathlib.Data.List.Forall2
set_option autoImplicit false
/- Properties C151-C155: frames sent and received by the CAN controllers. -/
namespace Props.CanFrame
open Modm.Can Modm.CanFrame Spec.CanFrame
open Modm.Sab (Byte)

/-- a test of one bit -/
private theorem bit_test (w : BitVec 32) (k : Nat) : decide (w &&& BitVec.twoPow 32 k ≠ 0#32) = w.getLsbD k := by
  rw [BitVec.and_twoPow]
  by_cases hk : k < 32
  · cases h : w.getLsbD k
    · simp
    · have : BitVec.twoPow 32 k ≠ 0#32 := by
        intro h'
        have := congrArg (fun x => x.getLsbD k) h'
        simp [hk] at this
      simp [this]
  · have : w.getLsbD k = false := BitVec.getLsbD_of_ge _ _ (by omega)
    simp [this]

private theorem bit_test' (w : BitVec 32) (k : Nat) : (w &&& BitVec.twoPow 32 k ≠ 0#32) ↔ w.getLsbD k = true := by
  rw [← bit_test]; simp

/-! ### bxCAN -/

/-- A message for each kind of case: 29-bit identifier, three bytes. -/
private def sample (ext rtr : Bool) : Message :=
  { identifier := if ext then 0x1abcdef5#32 else 0x5a5#32, fd := false, brs := false, rtr := rtr, extended := ext, dlc := 3, length := 3,
    data := [0x11#8, 0x22#8, 0x33#8, 0, 0, 0, 0, 0] }

private theorem sample_proper (ext rtr : Bool) : Proper 8 (sample ext rtr) := by
  cases ext <;> cases rtr <;> constructor <;> decide

private theorem bx_id (x : BitVec 32) (ext rtr : Bool) (h : x.toNat < if ext then 2 ^ 29 else 2 ^ 11) (w : BitVec 32)
    (hw : w = (if ext then x <<< 3 ||| tirIde else x <<< 21) ||| (if rtr then tirRtr else 0#32) ||| tirTxrq) :
    w.getLsbD 2 = ext ∧ w.getLsbD 1 = rtr ∧ w.getLsbD 0 = true ∧
    (if w.getLsbD 2 then bits w 3 29 else bits w 21 11) = x.setWidth 29 := by
  cases ext
  · obtain ⟨y, rfl⟩ := std_id (by simpa using h)
    subst hw
    cases rtr
    · refine ⟨by simp [tirTxrq], by simp [tirTxrq], by simp [tirTxrq], ?_⟩
      rw [if_neg (by simp [tirTxrq])]
      apply BitVec.eq_of_getLsbD_eq; intro i hi; interval_cases i <;> simp [bits, tirTxrq]
    · refine ⟨by simp [tirTxrq, tirRtr], by simp [tirTxrq, tirRtr], by simp [tirTxrq, tirRtr], ?_⟩
      rw [if_neg (by simp [tirTxrq, tirRtr])]
      apply BitVec.eq_of_getLsbD_eq; intro i hi; interval_cases i <;> simp [bits, tirTxrq, tirRtr]
  · obtain ⟨y, rfl⟩ := ext_id (by simpa using h)
    subst hw
    cases rtr
    · refine ⟨by simp [tirTxrq, tirIde], by simp [tirTxrq, tirIde], by simp [tirTxrq, tirIde], ?_⟩
      rw [if_pos (by simp [tirTxrq, tirIde])]
      apply BitVec.eq_of_getLsbD_eq; intro i hi; interval_cases i <;> simp [bits, tirTxrq, tirIde]
    · refine ⟨by simp [tirTxrq, tirRtr, tirIde], by simp [tirTxrq, tirRtr, tirIde], by simp [tirTxrq, tirRtr, tirIde], ?_⟩
      rw [if_pos (by simp [tirTxrq, tirRtr, tirIde])]
      apply BitVec.eq_of_getLsbD_eq; intro i hi; interval_cases i <;> simp [bits, tirTxrq, tirRtr, tirIde]

private theorem range8 : List.range 8 = [0, 1, 2, 3, 4, 5, 6, 7] := by decide

/-- **C151** The frame in the mailbox after `sendMailbox` is the frame of the message, and its transmission is requested. -/
theorem C151_send {capacity : Nat} (hc : 8 ≤ capacity) {m : Message} (hm : Proper capacity m) (hf : m.fd = false) :
    ∃ b, sendMailbox m = some b ∧ bxFrame b = frameOf m ∧ b.ir.getLsbD 0 = true := by
  have hd : m.dlc ≤ 8 := by
    by_contra h
    have := hm.fd (by omega)
    simp [hf] at this
  have hb : m.brs = false := by
    cases h : m.brs
    · rfl
    · have := hm.brs h; simp [hf] at this
  have hl := hm.length
  rw [fdLength_small hd] at hl
  have hlen : 8 ≤ m.data.length := by rw [hm.data]; exact hc
  obtain ⟨h1, h2, h3, h4⟩ := bx_id m.identifier m.extended m.rtr hm.id _ rfl
  have hdlc : ((BitVec.ofNat 32 m.dlc).extractLsb' 0 4).toNat = m.dlc := by
    simp [BitVec.extractLsb'_toNat]; omega
  match hdat : m.data, hlen with
  | a0 :: a1 :: a2 :: a3 :: a4 :: a5 :: a6 :: a7 :: rest, _ =>
    refine ⟨_, by simp only [sendMailbox, hdat, loadTwo, Option.map_some]; rfl, ?_, h3⟩
    simp only [bxFrame, frameOf, h1, h2, hf, hb, hdlc, Frame.mk.injEq, true_and]
    rw [h1] at h4
    refine ⟨h4, ?_⟩
    rw [range8]
    simp only [List.map_cons, List.map_nil, show (0 < 4) = True by simp, show (1 < 4) = True by simp, show (2 < 4) = True by simp,
      show (3 < 4) = True by simp, show ¬ (4 < 4) by omega, show ¬ (5 < 4) by omega, show ¬ (6 < 4) by omega, show ¬ (7 < 4) by omega,
      if_true, if_false]
    simp only [Nat.mul_zero, Nat.mul_one, Nat.sub_self, Nat.reduceMul, Nat.reduceSub, byte0, byte1, byte2, byte3]
    cases m.rtr
    · simp only [payload, hdat, hl, Nat.min_eq_left hd, Bool.false_eq_true, if_false]
      rw [show a0 :: a1 :: a2 :: a3 :: a4 :: a5 :: a6 :: a7 :: rest = [a0, a1, a2, a3, a4, a5, a6, a7] ++ rest from rfl,
        List.take_append_of_le_length (by simpa using hd)]
    · simp [payload]

example : Proper 8 (sample true true) ∧ (sample true true).fd = false := ⟨sample_proper true true, rfl⟩
example : (sendMailbox (sample false false)).map (fun b => bxFrame b) =
    some ⟨false, 0x5a5#29, false, false, false, 3, [0x11#8, 0x22#8, 0x33#8]⟩ := by decide +kernel

private theorem bx_read_id (w : BitVec 32) :
    (if w &&& tirIde ≠ 0#32 then w >>> 3 else w >>> 21) = (if w.getLsbD 2 then bits w 3 29 else bits w 21 11).setWidth 32 := by
  have : tirIde = BitVec.twoPow 32 2 := by decide
  simp only [this, bit_test']
  split_ifs
  · apply BitVec.eq_of_getLsbD_eq; intro i hi; interval_cases i <;> simp [bits]
  · apply BitVec.eq_of_getLsbD_eq; intro i hi; interval_cases i <;> simp [bits]

private theorem low4 (w : BitVec 32) : (w &&& 0xf#32).toNat = (w.extractLsb' 0 4).toNat := by
  rw [BitVec.toNat_and, BitVec.extractLsb'_toNat]
  simpa using Nat.and_two_pow_sub_one_eq_mod w.toNat 4

private theorem setDlc_fits {capacity : Nat} (hc : 8 ≤ capacity) (m : Message) {d : Nat} (hd : d ≤ 15) :
    ∃ m', setDataLengthCode capacity m d = some m' ∧ m'.data = m.data ∧ m'.identifier = m.identifier ∧ m'.extended = m.extended ∧
      m'.rtr = m.rtr ∧ m'.brs = m.brs ∧ m'.length ≤ capacity ∧ m'.length ≤ 64 ∧ m'.dlc ≤ d := by
  by_cases h8 : d ≤ 8
  · exact ⟨_, setDlc m hd (by rw [fdLength_small h8]; omega), rfl, rfl, rfl, rfl, rfl,
      by simp only [fdLength_small h8]; omega, fdLength_le, by simp⟩
  · have hd' : ∃ d', setDataLengthCode capacity m d = setDataLengthCode capacity m d' ∧ d' ≤ d ∧ fdLength d' ≤ capacity := by
      clear h8
      induction d with
      | zero => exact ⟨0, rfl, Nat.le_refl _, by simp [fdLength]⟩
      | succ d ih =>
        by_cases hfit : fdLength (d + 1) ≤ capacity
        · exact ⟨d + 1, rfl, Nat.le_refl _, hfit⟩
        · obtain ⟨d', h1, h2, h3⟩ := ih (by omega)
          refine ⟨d', ?_, by omega, h3⟩
          rw [← h1]
          have : shrink capacity (d + 1) = shrink capacity d := by
            have hlt : d + 1 < dlcConversionTable.length := by simp [dlcConversionTable]; omega
            have hv : dlcConversionTable[d + 1] = fdLength (d + 1) := by
              have : d < 15 := by omega
              interval_cases d <;> simp [dlcConversionTable, fdLength]
            rw [shrink, dif_pos hlt, hv, if_pos (by omega)]
          simp [setDataLengthCode, this]
    obtain ⟨d', h1, h2, h3⟩ := hd'
    rw [h1]
    exact ⟨_, setDlc m (by omega) h3, rfl, rfl, rfl, rfl, rfl, h3, fdLength_le, by simpa using h2⟩

private theorem four_bits (x : BitVec 4) : x.toNat ≤ 15 := by omega

/-- **C151** Reading a mailbox is defined for every content, never grows the buffer, and always tells the identifier with its kind
and whether the frame is a remote frame. -/
theorem C151_receive {capacity : Nat} (hc : 8 ≤ capacity) (m0 : Message) (h0 : m0.data.length = capacity) (b : Mailbox) :
    ∃ m, readMailbox capacity m0 b = some m ∧ m.data.length = capacity ∧ m.length ≤ capacity ∧
      m.extended = (bxFrame b).extended ∧ m.identifier = (bxFrame b).id.setWidth 32 ∧ m.rtr = (bxFrame b).rtr := by
  have hide : tirIde = BitVec.twoPow 32 2 := by decide
  have hrtr : tirRtr = BitVec.twoPow 32 1 := by decide
  obtain ⟨m1, h1, h2, h3, h4, h5, -, h7, -, -⟩ := setDlc_fits hc
    { m0 with
      identifier := if b.ir &&& tirIde ≠ 0#32 then b.ir >>> 3 else b.ir >>> 21
      extended := decide (b.ir &&& tirIde ≠ 0#32)
      rtr := decide (b.ir &&& tirRtr ≠ 0#32) } (d := (b.dtr &&& 0xf#32).toNat) (by rw [low4]; exact four_bits _)
  unfold readMailbox
  rw [h1, Option.bind_some, h2]
  match hdat : m0.data, h0 with
  | a0 :: a1 :: a2 :: a3 :: a4 :: a5 :: a6 :: a7 :: rest, h0 =>
    refine ⟨_, rfl, ?_, h7, ?_, ?_, ?_⟩
    · simp [bytes] at h0 ⊢; omega
    · simp only [h4, bxFrame, hide, bit_test]
    · simp only [h3, bxFrame, bx_read_id]
    · simp only [h5, bxFrame, hrtr, bit_test]
  | [], h | [_], h | [_, _], h | [_, _, _], h | [_, _, _, _], h | [_, _, _, _, _], h | [_, _, _, _, _, _], h | [_, _, _, _, _, _, _], h =>
    simp at h; omega

/-- **C151** (part) For every mailbox content with a DLC up to 8, read into an object without FD flags, the message tells everything
about the frame.  Missing: the other lengths and reused objects, where this is false. -/
theorem C151_receive_partial {capacity : Nat} (hc : 8 ≤ capacity) (m0 : Message) (h0 : m0.data.length = capacity)
    (hf : m0.fd = false) (hb : m0.brs = false) (b : Mailbox) (hd : (bxFrame b).dlc ≤ 8) :
    ∃ m, readMailbox capacity m0 b = some m ∧ Tells m (bxFrame b) := by
  have hide : tirIde = BitVec.twoPow 32 2 := by decide
  have hrtr : tirRtr = BitVec.twoPow 32 1 := by decide
  have hd' : (b.dtr.extractLsb' 0 4).toNat ≤ 8 := hd
  unfold readMailbox
  rw [low4, setDlc8 _ hd' hc, Option.bind_some]
  match hdat : m0.data, h0 with
  | a0 :: a1 :: a2 :: a3 :: a4 :: a5 :: a6 :: a7 :: rest, h0 =>
    refine ⟨_, rfl, ?_⟩
    constructor
    · simp only [bxFrame, hide, bit_test]
    · simp only [bxFrame, bx_read_id]
    · simp only [bxFrame, hrtr, bit_test]
    · simpa [bxFrame] using hf
    · simpa [bxFrame] using hb
    · simp [bxFrame]
    · simp only [bxFrame, payload, Bool.false_eq_true, if_false]; omega
    · intro hr
      have hr' : b.ir.getLsbD 1 = false := hr
      simp only [bxFrame, payload, hr', Bool.false_eq_true, if_false, Nat.min_eq_left hd', bytes_eq]
      have h8 : (List.range 8).map (fun i => (if i < 4 then b.dlr.extractLsb' (8 * i) 8 else b.dhr.extractLsb' (8 * (i - 4)) 8)) =
          (List.range 4).map (fun i => b.dlr.extractLsb' (8 * i) 8) ++ (List.range 4).map (fun i => b.dhr.extractLsb' (8 * i) 8) := by
        rw [range8, show List.range 4 = [0, 1, 2, 3] by decide]; rfl
      rw [h8, List.take_append_of_le_length (by simpa using hd')]
  | [], h | [_], h | [_, _], h | [_, _, _], h | [_, _, _, _], h | [_, _, _, _, _], h | [_, _, _, _, _, _], h | [_, _, _, _, _, _, _], h =>
    simp at h; omega

/-- an empty object -/
private def fresh (capacity : Nat) : Message := { Message.blank capacity 0#32 with extended := true }

example : (fresh 8).data.length = 8 ∧ (fresh 8).fd = false ∧ (fresh 8).brs = false ∧
    (bxFrame ⟨0xb4a00003#32, 0x3#32, 0x00332211#32, 0#32⟩) = ⟨false, 0x5a5#29, true, false, false, 3, []⟩ := by decide +kernel

/-- **C151** What one bxCAN sends, another one receives: the messages compare equal. -/
theorem C151_roundtrip {capacity : Nat} (hc : 8 ≤ capacity) {m m0 : Message} (hm : Proper capacity m) (hf : m.fd = false) (hr : m.rtr = false)
    (h0 : m0.data.length = capacity) (hf0 : m0.fd = false) (hb0 : m0.brs = false) :
    ∃ b, sendMailbox m = some b ∧ ∀ b', bxFrame b' = bxFrame b → ∃ m', readMailbox capacity m0 b' = some m' ∧ m'.eq m = true := by
  obtain ⟨b, h1, h2, -⟩ := C151_send hc hm hf
  refine ⟨b, h1, fun b' hb' => ?_⟩
  have hd : m.dlc ≤ 8 := by
    by_contra h
    have := hm.fd (by omega)
    simp [hf] at this
  obtain ⟨m', h3, h4⟩ := C151_receive_partial hc m0 h0 hf0 hb0 b' (by rw [hb', h2]; exact hd)
  rw [hb', h2] at h4
  exact ⟨m', h3, tells_eq hm hr h4⟩

example : (sendMailbox (sample true false)).bind (fun b => (readMailbox 8 (fresh 8) b).map fun m => m.eq (sample true false)) = some true := by
  decide +kernel

/-- **C151** is false in general: a classic frame with a DLC of 9, which has 8 bytes, arrives as an FD frame of 12 bytes when the
buffer of a message has more than 8 bytes; and an object which once held an FD frame calls every frame an FD frame. -/
theorem C151_receive_counterexample :
    (∃ b, bxFrame b = ⟨false, 0x123#29, false, false, false, 9, [1, 2, 3, 4, 5, 6, 7, 8]⟩ ∧
      (readMailbox 64 (fresh 64) b).map (fun m => (m.length, m.fd)) = some (12, true)) ∧
    (∃ b m0, m0.data.length = 64 ∧ m0.fd = true ∧ bxFrame b = ⟨false, 0x123#29, false, false, false, 1, [1]⟩ ∧
      (readMailbox 64 m0 b).map (fun m => (m.length, m.fd)) = some (1, true)) :=
  ⟨⟨⟨0x24600000#32, 9#32, 0x04030201#32, 0x08070605#32⟩, by decide +kernel, by decide +kernel⟩,
   ⟨⟨0x24600000#32, 1#32, 0x01#32, 0#32⟩, { fresh 64 with fd := true }, by decide +kernel, rfl, by decide +kernel, by decide +kernel⟩⟩

/-- **C151** is false for FD messages: the controller cannot send them, and the driver sends a classic frame with the first 8 bytes. -/
theorem C151_send_counterexample :
    ∃ m, Proper 64 m ∧ m.fd = true ∧ m.length = 12 ∧ ∃ b, sendMailbox m = some b ∧ b.ir.getLsbD 0 = true ∧
      (bxFrame b).fd = false ∧ (bxFrame b).data = m.data.take 8 :=
  ⟨{ fresh 64 with fd := true, dlc := 9, length := 12, data := (List.range 64).map (BitVec.ofNat 8) },
    by constructor <;> decide +kernel, rfl, rfl, _, rfl, by decide +kernel, by decide +kernel, by decide +kernel⟩

/-! ### FDCAN -/

private theorem h0_bits (x : BitVec 32) (ext rtr : Bool) (h : x.toNat < if ext then 2 ^ 29 else 2 ^ 11) (w : BitVec 32)
    (hw : w = valueSet idMask 0 ((if ext then extendedId else 0#32) ||| (if rtr then remoteFrame else 0#32)) (if ext then x else x <<< 18)) :
    w.getLsbD 30 = ext ∧ w.getLsbD 29 = rtr ∧ (if w.getLsbD 30 then bits w 0 29 else bits w 18 11) = x.setWidth 29 := by
  cases ext
  · obtain ⟨y, rfl⟩ := std_id (by simpa using h)
    subst hw
    cases rtr
    · refine ⟨by simp [valueSet, idMask], by simp [valueSet, idMask], ?_⟩
      rw [if_neg (by simp [valueSet, idMask])]
      apply BitVec.eq_of_getLsbD_eq; intro i hi; interval_cases i <;> simp [bits, valueSet, idMask]
    · refine ⟨by simp [valueSet, idMask, remoteFrame], by simp [valueSet, idMask, remoteFrame], ?_⟩
      rw [if_neg (by simp [valueSet, idMask, remoteFrame])]
      apply BitVec.eq_of_getLsbD_eq; intro i hi; interval_cases i <;> simp [bits, valueSet, idMask, remoteFrame]
  · obtain ⟨y, rfl⟩ := ext_id (by simpa using h)
    subst hw
    cases rtr
    · refine ⟨by simp [valueSet, idMask, extendedId], by simp [valueSet, idMask, extendedId], ?_⟩
      rw [if_pos (by simp [valueSet, idMask, extendedId])]
      apply BitVec.eq_of_getLsbD_eq; intro i hi; interval_cases i <;> simp [bits, valueSet, idMask, extendedId]
    · refine ⟨by simp [valueSet, idMask, remoteFrame, extendedId], by simp [valueSet, idMask, remoteFrame, extendedId], ?_⟩
      rw [if_pos (by simp [valueSet, idMask, remoteFrame, extendedId])]
      apply BitVec.eq_of_getLsbD_eq; intro i hi; interval_cases i <;> simp [bits, valueSet, idMask, remoteFrame, extendedId]

private theorem h1_bits (fd brs : Bool) (d : Nat) (hd : d ≤ 15) (w : BitVec 32)
    (hw : w = valueSet dlcMask 16 ((if fd then fdFrame else 0#32) ||| (if brs then bitRateSwitching else 0#32)) (BitVec.ofNat 32 d)) :
    w.getLsbD 21 = fd ∧ w.getLsbD 20 = brs ∧ (w.extractLsb' 16 4).toNat = d := by
  subst hw
  cases fd <;> cases brs <;> interval_cases d <;> decide

private theorem proper_payload {capacity : Nat} {m : Message} (hm : Proper capacity m) :
    payload m.rtr m.fd m.dlc = if m.rtr then 0 else m.length := by
  have h1 := hm.fd
  have h2 := hm.length
  have h3 := hm.rtr
  unfold payload
  by_cases hr : m.rtr = true
  · simp [hr]
  · rw [if_neg hr, if_neg hr]
    by_cases hf : m.fd = true
    · rw [if_pos hf, h2]
    · rw [if_neg hf, h2]
      have : m.dlc ≤ 8 := by
        by_contra h
        exact hf (h1 (by omega))
      rw [fdLength_small this]; omega

/-- **C152** The frame in the message RAM after `sendMsg` is the frame of the message: classic and FD, every length, both kinds of
identifiers, remote frames. -/
theorem C152_send {capacity : Nat} (hc : capacity % 4 = 0) {m : Message} (hm : Proper capacity m) :
    ∃ e, sendElement m = some e ∧ fdcanFrame e = frameOf m := by
  have hle : m.length ≤ 64 := by rw [hm.length]; exact fdLength_le
  obtain ⟨ws, h1, h2⟩ := packWords_eq (n := wordCount m.length) (data := m.data) (by rw [hm.data]; exact wordCount_le hm.fits hc)
  obtain ⟨h3, h4, h5⟩ := h0_bits m.identifier m.extended m.rtr hm.id _ rfl
  obtain ⟨h6, h7, h8⟩ := h1_bits m.fd m.brs m.dlc hm.dlc _ rfl
  refine ⟨_, by simp only [sendElement, h1, Option.map_some]; rfl, ?_⟩
  simp only [fdcanFrame, frameOf, headerFromMessage, txHeaderFromMessage, h3, h4, h6, h7, h8, Frame.mk.injEq, true_and]
  rw [h3] at h5
  refine ⟨h5, ?_⟩
  rw [proper_payload hm, h2]
  by_cases hr : m.rtr = true
  · simp [hr]
  · rw [if_neg hr, if_neg hr, List.take_take, Nat.min_eq_left (wordCount_ge hle)]

private theorem ext_masked (x : BitVec 32) : ((x &&& 0x1fffffff#32) <<< 0) &&& idMask = (x <<< 0) &&& idMask := by
  apply BitVec.eq_of_getLsbD_eq; intro i hi; interval_cases i <;> simp [idMask]

private theorem std_masked (x : BitVec 32) : (((x &&& 0x7ff#32) <<< 18) <<< 0) &&& idMask = ((x <<< 18) <<< 0) &&& idMask := by
  apply BitVec.eq_of_getLsbD_eq; intro i hi; interval_cases i <;> simp [idMask]

private theorem header_masked (m : Message) :
    headerFromMessage { m with identifier := m.identifier &&& if m.extended then 0x1fffffff#32 else 0x7ff#32 } = headerFromMessage m := by
  obtain ⟨x, fd, brs, rtr, ext, dlc, len, data⟩ := m
  cases ext
  · simp only [headerFromMessage, valueSet, if_false, Bool.false_eq_true, std_masked]
  · simp only [headerFromMessage, valueSet, if_true, ext_masked]

/-- **C152** An identifier that does not exist is cut off and changes nothing else in the frame. -/
theorem C152_send_masked {capacity : Nat} (hc : capacity % 4 = 0) {m : Message}
    (hm : Proper capacity { m with identifier := m.identifier &&& if m.extended then 0x1fffffff#32 else 0x7ff#32 }) :
    ∃ e, sendElement m = some e ∧
      fdcanFrame e = frameOf { m with identifier := m.identifier &&& if m.extended then 0x1fffffff#32 else 0x7ff#32 } := by
  obtain ⟨e, h1, h2⟩ := C152_send hc hm
  refine ⟨e, ?_, h2⟩
  rw [← h1]
  unfold sendElement
  rw [header_masked]
  rfl

/-- 20 bytes with bit rate switching -/
private def sampleFd : Message :=
  { identifier := 0x1abcdef5#32, fd := true, brs := true, rtr := false, extended := true, dlc := 11, length := 20,
    data := (List.range 64).map fun i => BitVec.ofNat 8 (i + 1) }

example : Proper 64 sampleFd ∧ 64 % 4 = 0 := ⟨by constructor <;> decide +kernel, rfl⟩
example : Proper 64 { sampleFd with identifier := 0xffffffff#32 &&& 0x7ff#32, extended := false } := by constructor <;> decide +kernel
example : (sendElement sampleFd).map (fun e => ((fdcanFrame e).dlc, (fdcanFrame e).brs, (fdcanFrame e).data.length)) = some (11, true, 20) := by
  decide +kernel

private theorem fd_read_id (w : BitVec 32) :
    (if w &&& extendedId ≠ 0#32 then valueGet idMask 0 w else valueGet idMask 0 w >>> 18) =
      (if w.getLsbD 30 then bits w 0 29 else bits w 18 11).setWidth 32 := by
  have : extendedId = BitVec.twoPow 32 30 := by decide
  simp only [this, bit_test']
  split_ifs
  · apply BitVec.eq_of_getLsbD_eq; intro i hi; interval_cases i <;> simp [bits, valueGet, idMask]
  · apply BitVec.eq_of_getLsbD_eq; intro i hi; interval_cases i <;> simp [bits, valueGet, idMask]

private theorem dlc_bits (w : BitVec 32) : (valueGet dlcMask 16 w).toNat = (w.extractLsb' 16 4).toNat := by
  have : valueGet dlcMask 16 w = (w.extractLsb' 16 4).setWidth 32 := by
    apply BitVec.eq_of_getLsbD_eq; intro i hi; interval_cases i <;> simp [valueGet, dlcMask]
  rw [this, BitVec.toNat_setWidth, Nat.mod_eq_of_lt (by have := four_bits (w.extractLsb' 16 4); omega)]

/-- **C152** Reading an element is defined for every content and always tells the identifier with its kind and whether the frame is
a remote frame; the length never exceeds the buffer. -/
theorem C152_receive {capacity : Nat} (hc : 8 ≤ capacity) (h4 : capacity % 4 = 0) (m0 : Message) (h0 : m0.data.length = capacity)
    (e : Element) (he : e.data.length = 16) :
    ∃ m, readElement capacity m0 e = some m ∧ m.data.length = capacity ∧ m.length ≤ capacity ∧
      m.extended = (fdcanFrame e).extended ∧ m.identifier = (fdcanFrame e).id.setWidth 32 ∧ m.rtr = (fdcanFrame e).rtr := by
  have hide : extendedId = BitVec.twoPow 32 30 := by decide
  have hrtr : remoteFrame = BitVec.twoPow 32 29 := by decide
  obtain ⟨m1, h1, h2, h3, h4', h5, -, h7, h8, -⟩ := setDlc_fits hc
    { m0 with
      extended := decide (e.h0 &&& extendedId ≠ 0#32)
      rtr := decide (e.h0 &&& remoteFrame ≠ 0#32)
      identifier := if e.h0 &&& extendedId ≠ 0#32 then valueGet idMask 0 e.h0 else valueGet idMask 0 e.h0 >>> 18 }
    (d := (valueGet dlcMask 16 e.h1).toNat) (by rw [dlc_bits]; exact four_bits _)
  unfold readElement
  have hlen : m1.data.length = capacity := by rw [h2]; exact h0
  have hw := wordCount_le h7 h4
  rw [h1, Option.bind_some, unpackWords_eq (by rw [he]; exact wordCount_16 _) (by rw [hlen]; exact hw)]
  refine ⟨_, rfl, ?_, h7, ?_, ?_, ?_⟩
  · simp only [List.length_append, List.length_take, List.length_drop, wordBytes_length, he, hlen]
    have := wordCount_16 m1.length
    omega
  · simp only [h4', fdcanFrame, hide, bit_test]
  · simp only [h3, fdcanFrame, fd_read_id]
  · simp only [h5, fdcanFrame, hrtr, bit_test]

/-- **C152** The DLC, the length and the data are right for every frame which fits into the buffer, except for the DLC above 8 of
classic frames; nothing is told about the FD flags. -/
theorem C152_content {capacity : Nat} (h4 : capacity % 4 = 0) (m0 : Message) (h0 : m0.data.length = capacity)
    (e : Element) (he : e.data.length = 16) (hcl : (fdcanFrame e).fd = false → (fdcanFrame e).dlc ≤ 8)
    (hfit : fdLength (fdcanFrame e).dlc ≤ capacity) :
    ∃ m, readElement capacity m0 e = some m ∧ m.dlc = (fdcanFrame e).dlc ∧ m.length = payload false (fdcanFrame e).fd (fdcanFrame e).dlc ∧
      ((fdcanFrame e).rtr = false → m.data.take m.length = (fdcanFrame e).data) ∧
      m.fd = (if (fdcanFrame e).dlc > 8 then true else m0.fd) ∧ m.brs = m0.brs ∧ m.data.length = capacity ∧
      m.extended = (fdcanFrame e).extended ∧ m.identifier = (fdcanFrame e).id.setWidth 32 ∧ m.rtr = (fdcanFrame e).rtr := by
  have hide : extendedId = BitVec.twoPow 32 30 := by decide
  have hrtr : remoteFrame = BitVec.twoPow 32 29 := by decide
  obtain ⟨h0w, h1w, dw⟩ := e
  dsimp only at he
  simp only [fdcanFrame] at hcl hfit ⊢
  unfold readElement
  dsimp only
  rw [dlc_bits]
  generalize hD : (h1w.extractLsb' 16 4).toNat = D at hcl hfit ⊢
  have hD15 : D ≤ 15 := by rw [← hD]; exact four_bits _
  have hpay : payload false (h1w.getLsbD 21) D = fdLength D := by
    unfold payload
    cases hf : h1w.getLsbD 21
    · have := hcl hf
      rw [fdLength_small this]; simpa using this
    · simp
  rw [setDlc _ hD15 hfit, Option.bind_some]
  dsimp only
  have hw := wordCount_le hfit h4
  have h64 : fdLength D ≤ 64 := fdLength_le
  have hlen : (wordBytes dw).length = 64 := by rw [wordBytes_length, he]
  have h16 := wordCount_16 (fdLength D)
  have hge := wordCount_ge h64
  rw [unpackWords_eq (by rw [he]; exact h16) (by rw [h0]; exact hw)]
  refine ⟨_, rfl, rfl, hpay.symm, ?_, rfl, rfl, ?_, ?_, ?_, ?_⟩
  · intro hr
    simp only [hr, hpay]
    rw [List.take_append_of_le_length (by rw [List.length_take, hlen]; omega), List.take_take, Nat.min_eq_left hge]
  · simp only [List.length_append, List.length_take, List.length_drop, hlen, h0]
    omega
  · simp only [hide, bit_test]
  · simp only [fd_read_id]
  · simp only [hrtr, bit_test]

/-- **C152** (part) For classic frames with a DLC up to 8, and for FD frames of more than 8 bytes without bit rate switching, read into
an object without FD flags, the message tells everything about the frame.  Missing: the other FD frames, classic frames with a
higher DLC, and reused objects, where this is false. -/
theorem C152_receive_partial {capacity : Nat} (h4 : capacity % 4 = 0) (m0 : Message) (h0 : m0.data.length = capacity)
    (hf : m0.fd = false) (hb : m0.brs = false) (e : Element) (he : e.data.length = 16)
    (hfd : (fdcanFrame e).fd = decide ((fdcanFrame e).dlc > 8)) (hbrs : (fdcanFrame e).brs = false)
    (hfit : fdLength (fdcanFrame e).dlc ≤ capacity) :
    ∃ m, readElement capacity m0 e = some m ∧ Tells m (fdcanFrame e) := by
  obtain ⟨m, h1, h2, h3, h5, h6, h7, -, h8, h9, h10⟩ := C152_content h4 m0 h0 e he (fun h => by
    rw [h] at hfd
    have := of_decide_eq_false hfd.symm
    omega) hfit
  refine ⟨m, h1, h8, h9, h10, ?_, by rw [h7, hb, hbrs], h2, h3, h5⟩
  rw [h6, hfd, hf]
  by_cases h : (fdcanFrame e).dlc > 8
  · simp [h]
  · simp [h]

/-- The content of an element with the data of a frame. -/
private def rxElement (h0 h1 : BitVec 32) : Element := ⟨h0, h1, 0x04030201#32 :: 0x08070605#32 :: List.replicate 14 0x11223344#32⟩

example : fdcanFrame (rxElement 0x5abcdef5#32 0x00290000#32) =
    ⟨true, 0x1abcdef5#29, false, true, false, 9, [1, 2, 3, 4, 5, 6, 7, 8, 0x44#8, 0x33#8, 0x22#8, 0x11#8]⟩ ∧ fdLength 9 ≤ 64 := by decide +kernel

/-- **C152** is false in general: an FD frame of up to 8 bytes arrives as a classic frame, bit rate switching is never told, and a
classic frame with a DLC of 9 arrives as an FD frame of 12 bytes. -/
theorem C152_receive_counterexample :
    (fdcanFrame (rxElement 0#32 0x00380000#32) = ⟨false, 0#29, false, true, true, 8, [1, 2, 3, 4, 5, 6, 7, 8]⟩ ∧
      (readElement 64 (fresh 64) (rxElement 0#32 0x00380000#32)).map (fun m => (m.length, m.fd, m.brs)) = some (8, false, false)) ∧
    ((fdcanFrame (rxElement 0#32 0x00390000#32)).brs = true ∧
      (readElement 64 (fresh 64) (rxElement 0#32 0x00390000#32)).map (fun m => (m.fd, m.brs)) = some (true, false)) ∧
    (fdcanFrame (rxElement 0#32 0x00090000#32) = ⟨false, 0#29, false, false, false, 9, [1, 2, 3, 4, 5, 6, 7, 8]⟩ ∧
      (readElement 64 (fresh 64) (rxElement 0#32 0x00090000#32)).map (fun m => (m.length, m.fd)) = some (12, true)) := by
  decide +kernel

/-- **C152** What one FDCAN sends, another one receives, except for the FD flags. -/
theorem C152_roundtrip_partial {capacity : Nat} (h4 : capacity % 4 = 0) {m m0 : Message} (hm : Proper capacity m) (hr : m.rtr = false)
    (hfd : m.fd = decide (m.dlc > 8)) (hbrs : m.brs = false)
    (h0 : m0.data.length = capacity) (hf0 : m0.fd = false) (hb0 : m0.brs = false) :
    ∃ e, sendElement m = some e ∧ ∀ e' : Element, e'.data.length = 16 → fdcanFrame e' = fdcanFrame e →
      ∃ m', readElement capacity m0 e' = some m' ∧ m'.eq m = true := by
  obtain ⟨e, h1, h2⟩ := C152_send h4 hm
  refine ⟨e, h1, fun e' hl he' => ?_⟩
  obtain ⟨m', h3, h5⟩ := C152_receive_partial h4 m0 h0 hf0 hb0 e' hl (by rw [he', h2]; exact hfd) (by rw [he', h2]; exact hbrs)
    (by rw [he', h2]; have := hm.fits; rw [hm.length] at this; exact this)
  rw [he', h2] at h5
  exact ⟨m', h3, tells_eq hm hr h5⟩

example : ∃ m, Proper 64 m ∧ m.rtr = false ∧ m.fd = decide (m.dlc > 8) ∧ m.brs = false ∧ m.length = 20 :=
  ⟨{ sampleFd with brs := false }, by constructor <;> decide +kernel, rfl, rfl, rfl, rfl⟩

/-- **C152** (part) In one run of the interrupt handler every classic frame of up to 8 bytes is told right if no other frames came
before it. -/
theorem C152_handler_partial {capacity : Nat} (hc : 8 ≤ capacity) (h4 : capacity % 4 = 0) (m0 : Message) (h0 : m0.data.length = capacity)
    (hf : m0.fd = false) (hb : m0.brs = false) (es : List Element)
    (hes : ∀ e ∈ es, e.data.length = 16 ∧ (fdcanFrame e).fd = false ∧ (fdcanFrame e).brs = false ∧ (fdcanFrame e).dlc ≤ 8) :
    ∃ ms, readAll capacity m0 es = some ms ∧ List.Forall₂ (fun m e => Tells m (fdcanFrame e)) ms es := by
  induction es generalizing m0 with
  | nil => exact ⟨[], rfl, List.Forall₂.nil⟩
  | cons e es ih =>
    obtain ⟨h1, h2, h3, h5⟩ := hes e (by simp)
    have hfit : fdLength (fdcanFrame e).dlc ≤ capacity := by rw [fdLength_small h5]; omega
    obtain ⟨m, hm, ht⟩ := C152_receive_partial h4 m0 h0 hf hb e h1 (by rw [h2]; simp; omega) h3 hfit
    obtain ⟨m', hm', -, -, -, -, -, hl, -⟩ := C152_content h4 m0 h0 e h1 (fun _ => h5) hfit
    rw [hm] at hm'
    cases hm'
    obtain ⟨ms, h6, h7⟩ := ih m hl (by rw [ht.fd, h2]) (by rw [ht.brs, h3]) (fun e' he' => hes e' (by simp [he']))
    exact ⟨m :: ms, by simp [readAll, hm, h6], List.Forall₂.cons ht h7⟩

example : ∃ ms, readAll 64 (fresh 64) [rxElement 0#32 0x00020000#32, rxElement 0x40000007#32 0x00010000#32] = some ms ∧
    ms.map (fun m => (m.identifier, m.length, m.fd)) = [(0#32, 2, false), (7#32, 1, false)] := ⟨_, rfl, by decide +kernel⟩

/-- **C152** is false in the interrupt handler: a classic frame which is read in the same run after an FD frame arrives as an FD frame. -/
theorem C152_handler_counterexample :
    (fdcanFrame (rxElement 0x40000007#32 0x00010000#32)).fd = false ∧
    (readAll 64 (fresh 64) [rxElement 0#32 0x00290000#32, rxElement 0x40000007#32 0x00010000#32]).map (fun ms => ms.map fun m => (m.length, m.fd)) =
      some [(12, true), (1, true)] := by decide +kernel

/-! ### SocketCAN -/

private theorem sock_id (x : BitVec 32) (ext rtr : Bool) (h : x.toNat < if ext then 2 ^ 29 else 2 ^ 11) (w : BitVec 32)
    (hw : w = x ||| (if ext then effFlag else 0#32) ||| (if rtr then rtrFlag else 0#32)) :
    w.getLsbD 31 = ext ∧ w.getLsbD 30 = rtr ∧ (if w.getLsbD 31 then bits w 0 29 else bits w 0 11) = x.setWidth 29 := by
  cases ext
  · obtain ⟨y, rfl⟩ := std_id (by simpa using h)
    subst hw
    cases rtr
    · refine ⟨by simp, by simp, ?_⟩
      rw [if_neg (by simp)]
      apply BitVec.eq_of_getLsbD_eq; intro i hi; interval_cases i <;> simp [bits]
    · refine ⟨by simp [rtrFlag], by simp [rtrFlag], ?_⟩
      rw [if_neg (by simp [rtrFlag])]
      apply BitVec.eq_of_getLsbD_eq; intro i hi; interval_cases i <;> simp [bits, rtrFlag]
  · obtain ⟨y, rfl⟩ := ext_id (by simpa using h)
    subst hw
    cases rtr
    · refine ⟨by simp [effFlag], by simp [effFlag], ?_⟩
      rw [if_pos (by simp [effFlag])]
      apply BitVec.eq_of_getLsbD_eq; intro i hi; interval_cases i <;> simp [bits, effFlag]
    · refine ⟨by simp [effFlag, rtrFlag], by simp [effFlag, rtrFlag], ?_⟩
      rw [if_pos (by simp [effFlag, rtrFlag])]
      apply BitVec.eq_of_getLsbD_eq; intro i hi; interval_cases i <;> simp [bits, effFlag, rtrFlag]

private theorem classic {capacity : Nat} {m : Message} (hm : Proper capacity m) (hf : m.fd = false) :
    m.dlc ≤ 8 ∧ m.length = m.dlc ∧ m.brs = false := by
  have hd : m.dlc ≤ 8 := by
    by_contra h
    have := hm.fd (by omega)
    simp [hf] at this
  refine ⟨hd, by rw [hm.length, fdLength_small hd], ?_⟩
  cases h : m.brs
  · rfl
  · have := hm.brs h; simp [hf] at this

/-- **C153** (part) The frame passed to Linux is the frame of the message.  Missing: FD messages of more than 8 bytes, where the
function writes outside its frame. -/
theorem C153_send_partial {capacity : Nat} {m : Message} (hm : Proper capacity m) (hf : m.fd = false) (rest : List Byte) (hr : rest.length = 8) :
    ∃ s, sockSend m rest = some s ∧ sockFrame s = frameOf m := by
  obtain ⟨hd, hl, hb⟩ := classic hm hf
  obtain ⟨h1, h2, h3⟩ := sock_id m.identifier m.extended m.rtr hm.id _ rfl
  have hfit := hm.fits
  have hlen : m.length ≤ m.data.length := by rw [hm.data]; exact hfit
  refine ⟨_, by rw [sockSend, copy_eq hlen (by omega)]; rfl, ?_⟩
  simp only [sockFrame, frameOf, h1, h2, hf, hb, hl, Frame.mk.injEq, true_and]
  rw [h1] at h3
  refine ⟨h3, ?_⟩
  by_cases hrtr : m.rtr = true
  · simp [hrtr, payload]
  · simp only [payload, hrtr, Bool.false_eq_true, if_false]
    rw [Nat.min_eq_left hd, List.take_append_of_le_length (by rw [List.length_take]; omega), List.take_take, Nat.min_self]

example : Proper 8 (sample true true) ∧ (sample true true).fd = false ∧ (List.replicate 8 (0#8 : Byte)).length = 8 :=
  ⟨sample_proper true true, rfl, rfl⟩

/-- **C153** is false for every message of more than 8 bytes: the copy leaves the frame on the stack. -/
theorem C153_send_counterexample :
    (∃ m, Proper 64 m ∧ m.length = 12) ∧
    ∀ (m : Message) (rest : List Byte), m.length > 8 → rest.length = 8 → sockSend m rest = none :=
  ⟨⟨{ sampleFd with dlc := 9, length := 12 }, by constructor <;> decide +kernel, rfl⟩,
   fun m rest h1 h2 => by rw [sockSend, copy_none (by omega)]; rfl⟩

private theorem sock_read_id (w : BitVec 32) (he : w.getLsbD 29 = false)
    (hst : w.getLsbD 31 = false → ∀ i, 11 ≤ i → i < 29 → w.getLsbD i = false) :
    w = ((if w.getLsbD 31 then bits w 0 29 else bits w 0 11).setWidth 32 : BitVec 32) ||| (if w.getLsbD 31 then effFlag else 0#32) |||
      (if w.getLsbD 30 then rtrFlag else 0#32) := by
  apply BitVec.eq_of_getLsbD_eq; intro i hi
  by_cases hx : w.getLsbD 31 = true
  · rw [if_pos hx, if_pos hx]
    by_cases hy : w.getLsbD 30 = true
    · rw [if_pos hy]
      interval_cases i <;> simp_all [bits, effFlag, rtrFlag]
    · rw [if_neg hy]
      interval_cases i <;> simp_all [bits, effFlag]
  · rw [if_neg hx, if_neg hx]
    have hx' : w.getLsbD 31 = false := by simpa using hx
    have hst := hst hx'
    by_cases h11 : i < 11
    · by_cases hy : w.getLsbD 30 = true
      · rw [if_pos hy]; interval_cases i <;> simp [bits, rtrFlag]
      · rw [if_neg hy]; interval_cases i <;> simp [bits]
    · by_cases h29 : i < 29
      · have hb := hst i (by omega) h29
        by_cases hy : w.getLsbD 30 = true
        · rw [if_pos hy, hb]; clear hst; interval_cases i <;> simp [bits, rtrFlag]
        · rw [if_neg hy, hb]; clear hst; interval_cases i <;> simp [bits]
      · have : i = 29 ∨ i = 30 ∨ i = 31 := by omega
        by_cases hy : w.getLsbD 30 = true
        · rw [if_pos hy]
          rcases this with rfl | rfl | rfl
          · rw [he]; simp [bits, rtrFlag]
          · rw [hy]; simp [bits, rtrFlag]
          · rw [hx']; simp [bits, rtrFlag]
        · rw [if_neg hy]
          have hy' : w.getLsbD 30 = false := by simpa using hy
          rcases this with rfl | rfl | rfl
          · rw [he]; simp [bits]
          · rw [hy']; simp [bits]
          · rw [hx']; simp [bits]

/-- **C153** For every frame from Linux the kind, the length and the data are right; the identifier has the flags in its upper bits. -/
theorem C153_content {capacity : Nat} (hc : 8 ≤ capacity) (m0 : Message) (h0 : m0.data.length = capacity) (s : SockFrame) (hs : FromLinux s) :
    ∃ m, sockGet capacity m0 s = some m ∧ m.extended = (sockFrame s).extended ∧ m.rtr = (sockFrame s).rtr ∧ m.dlc = (sockFrame s).dlc ∧
      m.length = payload false false (sockFrame s).dlc ∧ ((sockFrame s).rtr = false → m.data.take m.length = (sockFrame s).data) ∧
      m.identifier = (sockFrame s).id.setWidth 32 ||| (if (sockFrame s).extended then effFlag else 0#32) |||
        (if (sockFrame s).rtr then rtrFlag else 0#32) ∧ m.fd = m0.fd ∧ m.brs = m0.brs := by
  have heff : effFlag = BitVec.twoPow 32 31 := by decide
  have hrtr : rtrFlag = BitVec.twoPow 32 30 := by decide
  have hd := hs.dlc
  have hl := hs.data
  refine ⟨_, by rw [sockGet, setDlc8 _ hd hc, Option.bind_some, copy_eq (by omega) (by simp only [h0]; omega)]; rfl, ?_⟩
  refine ⟨?_, ?_, rfl, ?_, ?_, ?_, rfl, rfl⟩
  · simp only [sockFrame, heff, bit_test]
  · simp only [sockFrame, hrtr, bit_test]
  · simp only [sockFrame, payload, Bool.false_eq_true, if_false]; omega
  · intro hr
    have hr' : s.id.getLsbD 30 = false := hr
    simp only [sockFrame, payload, hr', Bool.false_eq_true, if_false]
    rw [Nat.min_eq_left hd, List.take_append_of_le_length (by rw [List.length_take]; omega), List.take_take, Nat.min_self]
  · exact sock_read_id s.id hs.error hs.standard

/-- **C153** (part) A standard data frame read into an object without FD flags is told completely. -/
theorem C153_receive_partial {capacity : Nat} (hc : 8 ≤ capacity) (m0 : Message) (h0 : m0.data.length = capacity) (s : SockFrame) (hs : FromLinux s)
    (hf : m0.fd = false) (hb : m0.brs = false) (hx : (sockFrame s).extended = false) (hr : (sockFrame s).rtr = false) :
    ∃ m, sockGet capacity m0 s = some m ∧ Tells m (sockFrame s) := by
  obtain ⟨m, h1, h2, h3, h4, h5, h6, h7, h8, h9⟩ := C153_content hc m0 h0 s hs
  refine ⟨m, h1, h2, ?_, h3, by rw [h8, hf]; rfl, by rw [h9, hb]; rfl, h4, h5, h6⟩
  rw [h7, hx, hr]; simp

private def linux (id : BitVec 32) : SockFrame := ⟨id, 2, [1, 2, 0, 0, 0, 0, 0, 0]⟩

private theorem linux_ok (id : BitVec 32) (h : id = 0x123#32 ∨ id = 0x80000123#32) : FromLinux (linux id) := by
  rcases h with rfl | rfl
  · refine ⟨by decide, rfl, by decide, fun _ i h1 h2 => ?_⟩
    interval_cases i <;> decide
  · exact ⟨by decide, rfl, by decide, fun h => absurd h (by decide)⟩

example : FromLinux (linux 0x123#32) ∧ (sockFrame (linux 0x123#32)).extended = false ∧ (sockFrame (linux 0x123#32)).rtr = false :=
  ⟨linux_ok _ (Or.inl rfl), by decide, by decide⟩

/-- **C153** is false for every extended frame and every remote frame: the identifier of the message is not the identifier of the frame. -/
theorem C153_receive_counterexample :
    (∃ s, FromLinux s ∧ (sockFrame s).extended = true) ∧
    ∀ (capacity : Nat) (m0 : Message) (s : SockFrame), 8 ≤ capacity → m0.data.length = capacity → FromLinux s →
      ((sockFrame s).extended = true ∨ (sockFrame s).rtr = true) →
      ∃ m, sockGet capacity m0 s = some m ∧ m.identifier ≠ (sockFrame s).id.setWidth 32 := by
  refine ⟨⟨linux 0x80000123#32, linux_ok _ (Or.inr rfl), by decide⟩, fun capacity m0 s hc h0 hs h => ?_⟩
  obtain ⟨m, h1, -, -, -, -, -, h7, -⟩ := C153_content hc m0 h0 s hs
  refine ⟨m, h1, fun hid => ?_⟩
  rw [hid] at h7
  rcases h with h | h
  · have := congrArg (fun x => x.getLsbD 31) h7
    rw [h] at this
    cases hr : (sockFrame s).rtr <;> simp [hr, effFlag, rtrFlag] at this
  · have := congrArg (fun x => x.getLsbD 30) h7
    rw [h] at this
    cases hx : (sockFrame s).extended <;> simp [hx, effFlag, rtrFlag] at this

/-! ### MCP2515 -/

private theorem mcp_write_id (x : BitVec 32) (ext : Bool) (h : x.toNat < if ext then 2 ^ 29 else 2 ^ 11) :
    ∃ b0 b1 b2 b3, writeIdentifier x ext = [b0, b1, b2, b3] ∧ b1.getLsbD 3 = ext ∧ mcpId b0 b1 b2 b3 = x.setWidth 29 := by
  cases ext
  · obtain ⟨y, rfl⟩ := std_id (by simpa using h)
    refine ⟨_, _, _, _, by simp only [writeIdentifier, Bool.false_eq_true, if_false]; rfl, by simp, ?_⟩
    rw [mcpId, if_neg (by simp)]
    apply BitVec.eq_of_getLsbD_eq; intro i hi
    simp only [BitVec.getLsbD_setWidth, BitVec.getLsbD_append, BitVec.getLsbD_extractLsb']
    interval_cases i <;> simp
  · obtain ⟨y, rfl⟩ := ext_id (by simpa using h)
    refine ⟨_, _, _, _, by simp only [writeIdentifier, if_true]; rfl, by simp, ?_⟩
    rw [mcpId, if_pos (by simp)]
    apply BitVec.eq_of_getLsbD_eq; intro i hi
    simp only [BitVec.getLsbD_setWidth, BitVec.getLsbD_append, BitVec.getLsbD_extractLsb']
    interval_cases i <;> simp

/-- **C154** (part) The bytes written to a transmit buffer are the frame of the message.  Missing: FD messages, which the chip cannot send. -/
theorem C154_send_partial {capacity : Nat} {m : Message} (hm : Proper capacity m) (hf : m.fd = false) :
    ∃ bs, mcpWrite m = some bs ∧ mcpTx bs = some (frameOf m) := by
  obtain ⟨hd, hl, hb⟩ := classic hm hf
  obtain ⟨b0, b1, b2, b3, h1, h2, h3⟩ := mcp_write_id m.identifier m.extended hm.id
  have hfit := hm.fits
  have hlen : m.length ≤ m.data.length := by rw [hm.data]; exact hfit
  have hd' : m.length ≤ 8 := by omega
  by_cases hr : m.rtr = true
  · refine ⟨_, by rw [mcpWrite, if_pos hr], ?_⟩
    rw [h1]
    simp only [List.cons_append, List.nil_append, mcpTx, mcpFrame, h2, h3, frameOf, hf, hb, hr, if_true, ← hl]
    generalize m.length = n at hd'
    interval_cases n <;> simp [payload]
  · refine ⟨_, by rw [mcpWrite, if_neg hr, if_pos hlen], ?_⟩
    rw [h1]
    simp only [List.cons_append, List.nil_append, mcpTx, mcpFrame, h2, h3, frameOf, hf, hb, hr, ← hl]
    have h6 : (BitVec.ofNat 8 m.length).getLsbD 6 = false := by
      generalize m.length = n at hd'
      interval_cases n <;> decide
    have h4 : ((BitVec.ofNat 8 m.length).extractLsb' 0 4).toNat = m.length := by
      generalize m.length = n at hd'
      interval_cases n <;> decide
    simp only [h6, h4, payload, Bool.false_eq_true, if_false, Nat.min_eq_left hd', List.take_take, Nat.min_self]

example : ∃ bs, mcpWrite (sample true false) = some bs ∧ mcpTx bs = some ⟨true, 0x1abcdef5#29, false, false, false, 3, [0x11#8, 0x22#8, 0x33#8]⟩ :=
  ⟨_, rfl, by decide +kernel⟩

private theorem byte_test (w : Byte) (k : Nat) (hk : k < 8) : decide (w &&& BitVec.twoPow 8 k ≠ 0#8) = w.getLsbD k := by
  rw [BitVec.and_twoPow]
  cases h : w.getLsbD k
  · simp
  · have : BitVec.twoPow 8 k ≠ 0#8 := by
      intro h'
      have := congrArg (fun x => x.getLsbD k) h'
      simp [hk] at this
    simp [this]

private theorem mcp_read_id (b0 b1 b2 b3 : Byte) : Modm.CanFrame.readIdentifier b0 b1 b2 b3 = ((mcpId b0 b1 b2 b3).setWidth 32, b1.getLsbD 3) := by
  have h8 : (b1 &&& 0x08#8 ≠ 0#8) ↔ b1.getLsbD 3 = true := by
    have h1 := byte_test b1 3 (by omega)
    rw [show BitVec.twoPow 8 3 = 0x08#8 by decide] at h1
    rw [← h1]; simp
  unfold Modm.CanFrame.readIdentifier mcpId
  cases hx : b1.getLsbD 3
  · rw [if_neg (by rw [h8, hx]; simp), if_neg (by simp)]
    refine Prod.ext ?_ rfl
    apply BitVec.eq_of_getLsbD_eq; intro i hi
    simp only [BitVec.getLsbD_setWidth, BitVec.getLsbD_append, BitVec.getLsbD_extractLsb', BitVec.getLsbD_or, BitVec.getLsbD_ushiftRight,
      BitVec.getLsbD_shiftLeft]
    interval_cases i <;> simp
  · rw [if_pos (by rw [h8, hx]), if_pos rfl]
    refine Prod.ext ?_ rfl
    apply BitVec.eq_of_getLsbD_eq; intro i hi
    simp only [BitVec.getLsbD_setWidth, BitVec.getLsbD_append, BitVec.getLsbD_extractLsb', BitVec.getLsbD_or, BitVec.getLsbD_ushiftRight,
      BitVec.getLsbD_shiftLeft, BitVec.getLsbD_and]
    interval_cases i <;> simp

private theorem low4b (w : Byte) : (w &&& 0x0f#8).toNat = (w.extractLsb' 0 4).toNat := by
  rw [BitVec.toNat_and, BitVec.extractLsb'_toNat]
  simpa using Nat.and_two_pow_sub_one_eq_mod w.toNat 4

private theorem mcp_read {capacity : Nat} (hc : 8 ≤ capacity) (m0 : Message) (h0 : m0.data.length = capacity) (status : Byte) (buf : List Byte)
    (hb : 13 ≤ buf.length) {f : Frame} (hf : mcpRx buf = some f) (hd : f.dlc ≤ 8) (hst : status.getLsbD 3 = f.rtr) :
    ∃ m, mcpRead m0 status buf = some m ∧ m.extended = f.extended ∧ m.identifier = f.id.setWidth 32 ∧ m.rtr = f.rtr ∧
      m.length = payload false false f.dlc ∧ (f.rtr = false → m.data.take m.length = f.data) ∧ m.fd = m0.fd ∧ m.brs = m0.brs ∧ m.dlc = m0.dlc := by
  match buf, hb, hf with
  | b0 :: b1 :: b2 :: b3 :: b4 :: d, hb, hf =>
    simp only [mcpRx, Option.some.injEq] at hf
    subst hf
    simp only [List.length_cons] at hb
    have hd' : (b4.extractLsb' 0 4).toNat ≤ 8 := hd
    refine ⟨_, by rw [mcpRead, low4b, copy_eq (by omega) (by omega), Option.map_some], ?_⟩
    refine ⟨?_, ?_, ?_, ?_, ?_, rfl, rfl, rfl⟩
    · simp only [mcp_read_id, mcpFrame]
    · simp only [mcp_read_id, mcpFrame]
    · have h1 := byte_test status 3 (by omega)
      rw [show BitVec.twoPow 8 3 = 0x08#8 by decide] at h1
      simp only [h1, hst]
    · simp only [mcpFrame, payload, Bool.false_eq_true, if_false]; omega
    · intro hr
      rw [mcpFrame] at hr
      simp only [mcpFrame] at hr ⊢
      simp only [hr, payload, Bool.false_eq_true, if_false, Nat.min_eq_left hd']
      rw [List.take_append_of_le_length (by rw [List.length_take]; omega), List.take_take, Nat.min_self]

/-- **C154** (part) `getMessage` takes the first receive buffer if it is full, otherwise the second one, otherwise returns `false`; for a
frame with a DLC up to 8 the message tells everything but the DLC, which it leaves as it was.  Missing: the DLC and frames with
a higher DLC, where this is false. -/
theorem C154_receive_partial {capacity : Nat} (hc : 8 ≤ capacity) (m0 : Message) (h0 : m0.data.length = capacity) (status : Byte)
    (buf0 buf1 : List Byte) (hb0 : 13 ≤ buf0.length) (hb1 : 13 ≤ buf1.length) {f0 f1 : Frame} (hf0 : mcpRx buf0 = some f0) (hf1 : mcpRx buf1 = some f1)
    (full0 full1 : Bool) (hs : RxStatus status full0 full1 f0 f1) :
    (full0 = false → full1 = false → mcpGet m0 status buf0 buf1 = some none) ∧
    ∀ f second, (full0 = true ∧ f = f0 ∧ second = false ∨ full0 = false ∧ full1 = true ∧ f = f1 ∧ second = true) → f.dlc ≤ 8 →
      ∃ m, mcpGet m0 status buf0 buf1 = some (some (m, second)) ∧ m.dlc = m0.dlc ∧
        (m0.fd = false → m0.brs = false → Tells { m with dlc := f.dlc } f) := by
  have h6 := byte_test status 6 (by omega)
  rw [show BitVec.twoPow 8 6 = 0x40#8 by decide, hs.first] at h6
  have h7 := byte_test status 7 (by omega)
  rw [show BitVec.twoPow 8 7 = 0x80#8 by decide, hs.second] at h7
  constructor
  · intro ha hb
    rw [ha] at h6
    rw [hb] at h7
    rw [mcpGet, if_neg (of_decide_eq_false h6), if_neg (of_decide_eq_false h7)]
  · rintro f second (⟨ha, rfl, rfl⟩ | ⟨ha, hb, rfl, rfl⟩) hd
    · rw [ha] at h6
      obtain ⟨m, e1, e2, e3, e4, e5, e6, e7, e8, e9⟩ := mcp_read hc m0 h0 status buf0 hb0 hf0 hd (hs.rtr0 ha)
      refine ⟨m, by rw [mcpGet, if_pos (of_decide_eq_true h6), e1]; rfl, e9, fun hfd hbrs => ?_⟩
      have hf : f.fd = false ∧ f.brs = false := by
        match buf0, hf0 with
        | b0 :: b1 :: b2 :: b3 :: b4 :: d, hf0 => simp only [mcpRx, Option.some.injEq] at hf0; subst hf0; exact ⟨rfl, rfl⟩
      exact ⟨e2, e3, e4, by rw [hf.1]; exact e7.trans hfd, by rw [hf.2]; exact e8.trans hbrs, rfl, by rw [hf.1]; exact e5, e6⟩
    · rw [ha] at h6
      rw [hb] at h7
      obtain ⟨m, e1, e2, e3, e4, e5, e6, e7, e8, e9⟩ := mcp_read hc m0 h0 status buf1 hb1 hf1 hd (hs.rtr1 ha hb)
      refine ⟨m, by rw [mcpGet, if_neg (of_decide_eq_false h6), if_pos (of_decide_eq_true h7), e1]; rfl, e9, fun hfd hbrs => ?_⟩
      have hf : f.fd = false ∧ f.brs = false := by
        match buf1, hf1 with
        | b0 :: b1 :: b2 :: b3 :: b4 :: d, hf0 => simp only [mcpRx, Option.some.injEq] at hf0; subst hf0; exact ⟨rfl, rfl⟩
      exact ⟨e2, e3, e4, by rw [hf.1]; exact e7.trans hfd, by rw [hf.2]; exact e8.trans hbrs, rfl, by rw [hf.1]; exact e5, e6⟩

/-- registers of a receive buffer with two bytes of data and an extended identifier, or with a DLC of 9 -/
private def rxBuf (dlc : Byte) : List Byte := [0xd5#8, 0xe8#8, 0xcd#8, 0xef#8, dlc, 1, 2, 3, 4, 5, 6, 7, 8, 9, 10]

example : mcpRx (rxBuf 2#8) = some ⟨true, 0x1abccdef#29, false, false, false, 2, [1, 2]⟩ ∧
    RxStatus 0x50#8 true false ⟨true, 0x1abccdef#29, false, false, false, 2, [1, 2]⟩ ⟨true, 0x1abccdef#29, false, false, false, 2, [1, 2]⟩ :=
  ⟨by decide +kernel, by constructor <;> decide⟩

/-- **C154** is false in general: a message received with the MCP2515 and passed on to a bxCAN is sent without its data, because its DLC
is 0; and a frame with a DLC of 9 is written outside a buffer of 8 bytes. -/
theorem C154_receive_counterexample :
    ((mcpRx (rxBuf 2#8)).map (·.data) = some [1, 2] ∧
      ((mcpRead (fresh 8) 0x50#8 (rxBuf 2#8)).bind fun m => (sendMailbox m).map fun b => (m.length, (bxFrame b).data)) = some (2, [])) ∧
    ((mcpRx (rxBuf 9#8)).map (·.data) = some [1, 2, 3, 4, 5, 6, 7, 8] ∧ mcpRead (fresh 8) 0x50#8 (rxBuf 9#8) = none) := by
  decide +kernel

/-! ### C_CAN -/

private theorem obj_id (x : BitVec 32) (ext rtr : Bool) (h : x.toNat < if ext then 2 ^ 29 else 2 ^ 11) (w : BitVec 32)
    (hw : w = x ||| 0#32 ||| (if ext then 0x20000000#32 else 0#32) ||| (if rtr then 0x40000000#32 else 0#32)) :
    w.getLsbD 29 = ext ∧ w.getLsbD 30 = rtr ∧ (if w.getLsbD 29 then bits w 0 29 else bits w 0 11) = x.setWidth 29 := by
  cases ext
  · obtain ⟨y, rfl⟩ := std_id (by simpa using h)
    subst hw
    cases rtr
    · refine ⟨by simp, by simp, ?_⟩
      rw [if_neg (by simp)]
      apply BitVec.eq_of_getLsbD_eq; intro i hi; interval_cases i <;> simp [bits]
    · refine ⟨by simp, by simp, ?_⟩
      rw [if_neg (by simp)]
      apply BitVec.eq_of_getLsbD_eq; intro i hi; interval_cases i <;> simp [bits]
  · obtain ⟨y, rfl⟩ := ext_id (by simpa using h)
    subst hw
    cases rtr
    · refine ⟨by simp, by simp, ?_⟩
      rw [if_pos (by simp)]
      apply BitVec.eq_of_getLsbD_eq; intro i hi; interval_cases i <;> simp [bits]
    · refine ⟨by simp, by simp, ?_⟩
      rw [if_pos (by simp)]
      apply BitVec.eq_of_getLsbD_eq; intro i hi; interval_cases i <;> simp [bits]

/-- **C155** (part) The message object passed to the driver in ROM is the frame of the message.  Missing: FD messages of more than 8 bytes. -/
theorem C155_send_partial {capacity : Nat} (hc : 8 ≤ capacity) {m : Message} (hm : Proper capacity m) (hf : m.fd = false)
    (rest : List Byte) (hr : rest.length = 8) : ∃ o, sendObj m rest = some o ∧ objFrame o = frameOf m := by
  obtain ⟨hd, hl, hb⟩ := classic hm hf
  obtain ⟨h1, h2, h3⟩ := obj_id m.identifier m.extended m.rtr hm.id _ rfl
  have hlen : m.dlc ≤ m.data.length := by rw [hm.data]; omega
  refine ⟨_, by rw [sendObj, copy_eq hlen (by omega)]; rfl, ?_⟩
  simp only [objFrame, frameOf, h1, h2, hf, hb, hl, Frame.mk.injEq, true_and]
  rw [h1] at h3
  refine ⟨h3, ?_⟩
  by_cases hrtr : m.rtr = true
  · simp [hrtr, payload]
  · simp only [payload, hrtr, Bool.false_eq_true, if_false]
    rw [Nat.min_eq_left hd, List.take_append_of_le_length (by rw [List.length_take]; omega), List.take_take, Nat.min_self]

example : Proper 8 (sample false true) ∧ (sample false true).fd = false := ⟨sample_proper false true, rfl⟩

private theorem obj_read_id (w : BitVec 32) :
    (if w &&& 0x20000000#32 ≠ 0#32 then w &&& 0x1fffffff#32 else w &&& 0x7ff#32) =
      (if w.getLsbD 29 then bits w 0 29 else bits w 0 11).setWidth 32 := by
  have : 0x20000000#32 = BitVec.twoPow 32 29 := by decide
  simp only [this, bit_test']
  split_ifs
  · apply BitVec.eq_of_getLsbD_eq; intro i hi; interval_cases i <;> simp [bits]
  · apply BitVec.eq_of_getLsbD_eq; intro i hi; interval_cases i <;> simp [bits]

/-- **C155** (part) For every message object with a DLC up to 8, read into an object without FD flags, the message tells everything about
the frame.  Missing: the DLC values above 8, where this is false. -/
theorem C155_receive_partial {capacity : Nat} (hc : 8 ≤ capacity) (m0 : Message) (h0 : m0.data.length = capacity)
    (hf : m0.fd = false) (hb : m0.brs = false) (o : MsgObj) (ho : o.data.length = 8) (hd : o.dlc ≤ 8) :
    ∃ m, readObj capacity m0 o = some m ∧ Tells m (objFrame o) := by
  have hide : 0x20000000#32 = BitVec.twoPow 32 29 := by decide
  have hrtr : 0x40000000#32 = BitVec.twoPow 32 30 := by decide
  refine ⟨_, by rw [readObj, setDlc8 _ hd hc, Option.bind_some, copy_eq (by simp only; omega) (by simp only; omega)]; rfl, ?_⟩
  constructor
  · simp only [objFrame, hide, bit_test]
  · simp only [objFrame, obj_read_id]
  · simp only [objFrame, hrtr, bit_test]
  · exact hf
  · exact hb
  · rfl
  · simp only [objFrame, payload, Bool.false_eq_true, if_false]; omega
  · intro hr
    have hr' : o.modeId.getLsbD 30 = false := hr
    simp only [objFrame, payload, hr', Bool.false_eq_true, if_false]
    rw [Nat.min_eq_left hd, List.take_append_of_le_length (by rw [List.length_take]; omega), List.take_take, Nat.min_self]

example : objFrame ⟨0x21234567#32, [1, 2, 3, 0, 0, 0, 0, 0], 3⟩ = ⟨true, 0x1234567#29, false, false, false, 3, [1, 2, 3]⟩ := by decide +kernel

/-- **C155** is false in general: an FD message of 12 bytes is copied outside the message object (as many bytes as its DLC), and a
frame with a DLC of 9 is read from outside the message object if the buffer of a message has more than 8 bytes. -/
theorem C155_counterexample :
    (∃ m, Proper 64 m ∧ m.length = 12 ∧ sendObj m (List.replicate 8 0#8) = none) ∧
    (∃ o, o.data.length = 8 ∧ (objFrame o).dlc = 9 ∧ (objFrame o).data.length = 8 ∧ readObj 64 (fresh 64) o = none) :=
  ⟨⟨{ sampleFd with dlc := 9, length := 12 }, by constructor <;> decide +kernel, rfl, by decide +kernel⟩,
   ⟨⟨0x123#32, [1, 2, 3, 4, 5, 6, 7, 8], 9⟩, rfl, rfl, by decide +kernel, by decide +kernel⟩⟩

end Props.CanFrame
