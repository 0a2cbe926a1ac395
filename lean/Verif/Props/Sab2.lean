import Verif.Model.Sab2
import Verif.Spec.Sab2
import Verif.Props.Sab
set_option autoImplicit false
set_option linter.unusedSimpArgs false
/- Properties C40, C41, C53 (SAB2 protocol). -/
namespace Props.Sab2
open Modm.Sab2 Spec.Crc Lemmas.Crc Spec.Sab2
open Modm.Sab (Byte Flags)
open Polynomial hiding update

/-! ### checksum -/

theorem crcStep_eq (r : BitVec 16) : crcStep r = zstep 0xA001#16 r := by
  unfold crcStep zstep
  have h : (r &&& 1#16 ≠ 0#16) ↔ r.getLsbD 0 = true := by
    constructor
    · intro h
      by_contra hc
      apply h
      apply BitVec.eq_of_getLsbD_eq; intro i hi
      rw [BitVec.getLsbD_and]
      cases i with
      | zero => simpa using hc
      | succ i => simp [BitVec.getLsbD_ofNat, Nat.testBit_succ]
    · intro h hc
      have this : (r &&& 1#16).getLsbD 0 = (0#16).getLsbD 0 := by rw [hc]
      rw [BitVec.getLsbD_and, h] at this
      exact absurd this (by decide)
  by_cases hc : r.getLsbD 0 = true
  · rw [if_pos (h.2 hc), if_pos hc]
  · rw [if_neg (fun x => hc (h.1 x)), if_neg hc, BitVec.xor_zero]

theorem crcUpdate_bits (r : BitVec 16) (d : Byte) : crcUpdate r d = (byteBits d).foldl (bstep 0xA001#16) r := by
  rw [foldl_eq_zsteps _ _ _ (by simp [byteBits]), byteBits_length, pack_byteBits, crcUpdate, loop_zsteps _ _ crcStep_eq]

theorem crc_fold (m : List Byte) (r : BitVec 16) : m.foldl crcUpdate r = (bits m).foldl (bstep 0xA001#16) r := by
  rw [foldl_bits]; congr 1; funext r b; exact crcUpdate_bits r b

theorem gen_A001 : gen 0xA001#16 = (X ^ 16 + X ^ 15 + X ^ 2 + 1 : F2[X]) := by
  simp [gen, regPoly, Finset.sum_range_succ, co]; ring

theorem crc_isCrc (m : List Byte) (c : BitVec 16) : IsCrc m c ↔ m.foldl crcUpdate 0xffff#16 = c := by
  unfold IsCrc
  have ho : regPoly 0xFFFF#16 = (∑ i ∈ Finset.range 16, X ^ i : F2[X]) := by
    simp [regPoly, Finset.sum_range_succ, co]
  have h := foldl_mod (by decide) 0xA001#16 (bits m) 0xffff#16
  rw [← crc_fold, gen_A001, ho, bits_length] at h
  rw [← h]
  exact ⟨fun h => (regPoly_inj h).symm, fun h => by rw [h]⟩

theorem pack_le16 (lo hi : Byte) : pack 16 (bits [lo, hi]) = hi ++ lo := by
  apply BitVec.eq_of_getLsbD_eq
  intro i hi'
  rw [pack_getLsbD _ i hi', BitVec.getLsbD_append]
  have : bits [lo, hi] = byteBits lo ++ byteBits hi := by simp [bits]
  rw [this]
  by_cases h : i < 8
  · simp [h, byteBits, List.getD_eq_getElem?_getD, List.getElem?_append_left]
  · have h2 : i - 8 < 8 := by omega
    rw [List.getD_eq_getElem?_getD, List.getElem?_append_right (by simp [byteBits]; omega)]
    simp [h, byteBits, h2]

/-- the register is zero after the two checksum bytes exactly if they are the register before -/
theorem crc_closes (r : BitVec 16) (lo hi : Byte) : [lo, hi].foldl crcUpdate r = 0#16 ↔
    lo = r.setWidth 8 ∧ hi = (r >>> 8).setWidth 8 := by
  rw [crc_fold, foldl_eq_zsteps _ _ _ (by rw [bits_length]; simp), bits_length, pack_le16]
  have key : (r ^^^ (hi ++ lo) = 0#16) ↔ lo = r.setWidth 8 ∧ hi = (r >>> 8).setWidth 8 := by
    rw [xor_eq_zero]
    constructor
    · rintro rfl
      constructor
      · apply BitVec.eq_of_getLsbD_eq; intro i h
        simp only [BitVec.getLsbD_setWidth, BitVec.getLsbD_append, h]
        simp [h]
      · apply BitVec.eq_of_getLsbD_eq; intro i h
        simp only [BitVec.getLsbD_setWidth, BitVec.getLsbD_ushiftRight, BitVec.getLsbD_append, h]
        simp
    · rintro ⟨rfl, rfl⟩
      apply BitVec.eq_of_getLsbD_eq; intro i h
      rw [BitVec.getLsbD_append]
      by_cases h8 : i < 8
      · simp [h8]
      · simp only [h8, BitVec.getLsbD_setWidth, BitVec.getLsbD_ushiftRight]
        have h2 : i - 8 < 8 := by omega
        have h3 : 8 + (i - 8) = i := by omega
        simp [h2, h3]
  rw [← key]
  constructor
  · intro h
    exact zsteps_inj (p := 0xA001#16) (by decide) (by decide) _ (h.trans (zsteps_zero 0xA001#16 _).symm)
  · intro h; rw [h]; exact zsteps_zero _ _

theorem content_crc (content : List Byte) (header command : Byte) (payload : List Byte) (h : IsContent content header command payload) :
    content.foldl crcUpdate 0xffff#16 = 0#16 := by
  obtain ⟨c, hc, rfl⟩ := h
  rw [List.foldl_append, (crc_isCrc _ _).1 hc]
  exact (crc_closes _ _ _).2 ⟨rfl, rfl⟩

theorem content_of_crc (a b : Byte) (l : List Byte) (hl : 2 ≤ l.length) (h : (a :: b :: l).foldl crcUpdate 0xffff#16 = 0#16) :
    ∃ payload, payload.length + 2 = l.length ∧ IsContent (a :: b :: l) a b payload ∧ ∃ t, l = payload ++ t := by
  obtain ⟨p, x, y, rfl⟩ : ∃ p x y, l = p ++ [x, y] := by
    refine ⟨l.take (l.length - 2), (l.drop (l.length - 2))[0]'(by simp; omega), (l.drop (l.length - 2))[1]'(by simp; omega), ?_⟩
    conv_lhs => rw [← List.take_append_drop (l.length - 2) l]
    congr 1
    apply List.ext_getElem
    · simp; omega
    · intro i h1 h2
      simp at h2
      match i, h2 with
      | 0, _ => rfl
      | 1, _ => rfl
  have e : (a :: b :: (p ++ [x, y])) = (a :: b :: p) ++ [x, y] := rfl
  rw [e, List.foldl_append, crc_closes] at h
  refine ⟨p, by simp, ⟨_, (crc_isCrc _ _).2 rfl, ?_⟩, _, rfl⟩
  rw [← h.1, ← h.2]; rfl

/-! ### stuffing -/

theorem escaped_eq (b : Byte) : writeByteEscaped b =
    (if b = 0x7e#8 then [0x7d#8, 0x5e#8] else if b = 0x7d#8 then [0x7d#8, 0x5d#8] else [b]) := by
  unfold writeByteEscaped frameBounderyByte controlEscapeByte
  by_cases h1 : b = 0x7e#8
  · subst h1; decide
  · by_cases h2 : b = 0x7d#8
    · subst h2; decide
    · simp [h1, h2]

theorem stuff_eq (l : List Byte) : stuff l = l.flatMap writeByteEscaped := by
  induction l with
  | nil => rfl
  | cons b l ih => rw [stuff, ih, List.flatMap_cons, escaped_eq]

/-- C40: what is sent is a stuffed frame. -/
theorem C40_sends_frame (address : Byte) (flags : Flags) (command : Byte) (payload : List Byte) :
    ∃ content, IsContent content (address ||| flags.val) command payload ∧
      sendMessage address flags command payload = 0x7e#8 :: stuff content ++ [0x7e#8] := by
  refine ⟨_, ⟨_, (crc_isCrc _ _).2 rfl, rfl⟩, ?_⟩
  rw [stuff_eq]
  simp [sendMessage, frameBounderyByte, List.flatMap_append, crcInitialValue]

/-! ### receiving -/

theorem update_nil (N : Nat) (r : Rx) : update N r [] = some (r, []) := rfl

theorem update_cons (N : Nat) (r r' : Rx) (b : Byte) (bs : List Byte) (h0 : r.received = 0) (h : step N r b = some r') :
    update N r (b :: bs) = update N r' bs := by
  rw [update, if_neg (by simp [h0]), h]; rfl

/-- one (possibly escaped) content byte that fits -/
theorem update_escaped (N : Nat) (pre rest : List Byte) (x b : Byte) (crc : BitVec 16) (bs : List Byte)
    (hN : pre.length < N + 4) (hw : pre.length + 1 < 2 ^ sizeBits N) :
    update N ⟨pre ++ x :: rest, crc, pre.length, 0, false⟩ (writeByteEscaped b ++ bs) =
      update N ⟨(pre ++ [b]) ++ rest, crcUpdate crc b, (pre ++ [b]).length, 0, false⟩ bs := by
  have hst : store N ⟨pre ++ x :: rest, crc, pre.length, 0, false⟩ b =
      some ⟨(pre ++ [b]) ++ rest, crcUpdate crc b, (pre ++ [b]).length, 0, false⟩ := by
    unfold store
    simp only [List.length_append, List.length_cons, List.length_nil]
    rw [if_neg (by omega), if_pos (by omega), Nat.mod_eq_of_lt hw, List.set_append_right _ _ (Nat.le_refl _)]
    simp
  unfold writeByteEscaped
  by_cases h : b = frameBounderyByte ∨ b = controlEscapeByte
  · rw [if_pos h]
    have e1 : step N ⟨pre ++ x :: rest, crc, pre.length, 0, false⟩ controlEscapeByte =
        some ⟨pre ++ x :: rest, crc, pre.length, 0, true⟩ := rfl
    have e2 : step N ⟨pre ++ x :: rest, crc, pre.length, 0, true⟩ (b ^^^ 0x20#8) =
        some ⟨(pre ++ [b]) ++ rest, crcUpdate crc b, (pre ++ [b]).length, 0, false⟩ := by
      rw [← hst]
      rcases h with rfl | rfl <;> rfl
    rw [List.cons_append, List.cons_append, List.nil_append, update_cons N _ _ _ _ rfl e1, update_cons N _ _ _ _ rfl e2]
  · rw [if_neg h]
    push Not at h
    have e2 : step N ⟨pre ++ x :: rest, crc, pre.length, 0, false⟩ b =
        some ⟨(pre ++ [b]) ++ rest, crcUpdate crc b, (pre ++ [b]).length, 0, false⟩ := by
      rw [← hst]; simp [step, h.1, h.2]
    rw [List.cons_append, List.nil_append, update_cons N _ _ _ _ rfl e2]

/-- the stuffed content bytes of a frame that fits -/
theorem update_content (N : Nat) (ds : List Byte) : ∀ (pre rest : List Byte) (crc : BitVec 16) (bs : List Byte),
    (pre ++ rest).length = N + 4 → pre.length + ds.length ≤ N + 4 → pre.length + ds.length < 2 ^ sizeBits N →
    ∃ rest', (pre ++ ds ++ rest').length = N + 4 ∧
    update N ⟨pre ++ rest, crc, pre.length, 0, false⟩ (stuff ds ++ bs) =
      update N ⟨pre ++ ds ++ rest', ds.foldl crcUpdate crc, pre.length + ds.length, 0, false⟩ bs := by
  induction ds with
  | nil => intro pre rest crc bs h1 h2 h3; exact ⟨rest, by simpa using h1, by simp [stuff]⟩
  | cons d ds ih =>
    intro pre rest crc bs h1 h2 h3
    simp only [List.length_append, List.length_cons] at h1 h2 h3
    obtain ⟨x, rest, rfl⟩ : ∃ x r, rest = x :: r := by
      cases rest with
      | nil => simp at h1; omega
      | cons x r => exact ⟨x, r, rfl⟩
    simp only [List.length_cons] at h1
    obtain ⟨rest', g1, g2⟩ := ih (pre ++ [d]) rest (crcUpdate crc d) bs (by simp; omega) (by simp; omega) (by simp; omega)
    refine ⟨rest', by simpa using g1, ?_⟩
    rw [stuff_eq, List.flatMap_cons, List.append_assoc, update_escaped N pre rest x d crc _ (by omega) (by omega), ← stuff_eq, g2]
    simp [Nat.add_assoc, Nat.add_comm 1]

/-- a frame from a state that has just seen a boundary -/
theorem receive (N : Nat) (buf : List Byte) (hb : buf.length = N + 4) (content : List Byte) (header command : Byte)
    (payload : List Byte) (hc : IsContent content header command payload) (hp : payload.length ≤ N)
    (hw : payload.length + 4 < 2 ^ sizeBits N) (tail : List Byte) :
    ∃ rest', (content ++ rest').length = N + 4 ∧
    update N ⟨buf, crcInitialValue, 0, 0, false⟩ (stuff content ++ 0x7e#8 :: tail) =
      some (⟨content ++ rest', crcInitialValue, 0, payload.length + 4, false⟩, tail) := by
  have hl : content.length = payload.length + 4 := by obtain ⟨c, _, rfl⟩ := hc; simp
  obtain ⟨rest', g1, g2⟩ := update_content N content [] buf crcInitialValue (0x7e#8 :: tail) (by simpa using hb)
    (by simp; omega) (by simp; omega)
  simp only [List.nil_append, List.length_nil, Nat.zero_add] at g1 g2
  refine ⟨rest', g1, ?_⟩
  have hcrc := content_crc content header command payload hc
  rw [g2, hl]
  have e : step N ⟨content ++ rest', content.foldl crcUpdate crcInitialValue, payload.length + 4, 0, false⟩ 0x7e#8 =
      some ⟨content ++ rest', crcInitialValue, 0, payload.length + 4, false⟩ := by
    simp only [step, frameBounderyByte, if_true, boundary]
    rw [if_pos ⟨trivial, by omega, hcrc⟩]
  rw [update_cons N _ _ _ _ rfl e]
  cases tail <;> simp [update]

theorem getters (N : Nat) (content rest : List Byte) (header command : Byte) (payload : List Byte)
    (hc : IsContent content header command payload) (hw : payload.length + 4 < 2 ^ sizeBits N) (crc : BitVec 16) (l : Nat) (e : Bool) :
    let r : Rx := ⟨content ++ rest, crc, l, payload.length + 4, e⟩
    isMessageAvailable r = true ∧ getAddress r = header &&& 0x3f#8 ∧ getCommand r = command ∧
    isResponse r = decide (header &&& 0x80#8 ≠ 0#8) ∧ isAcknowledge r = decide (header &&& 0x40#8 ≠ 0#8) ∧
    getPayloadLength N r = payload.length ∧ getPayload N r = payload := by
  obtain ⟨c, _, rfl⟩ := hc
  have h1 : (payload.length + 4 + 2 ^ sizeBits N - 4) % 2 ^ sizeBits N = payload.length := by
    have : payload.length + 4 + 2 ^ sizeBits N - 4 = payload.length + 2 ^ sizeBits N := by omega
    rw [this, Nat.add_mod_right]; exact Nat.mod_eq_of_lt (by omega)
  simp only [isMessageAvailable, getAddress, getCommand, isResponse, isAcknowledge, getPayloadLength, getPayload, h1]
  simp

/-- C40: in any state without pending message, the boundary byte at the start of a frame brings the receiver to the start of
a frame; if it completes a message (garbage with a valid checksum), that message is delivered first and the frame after
`dropMessage()`. The frame is reported exactly, for every payload of at most `N` bytes whose frame length fits `Size`;
the bytes behind the frame are left unread. -/
theorem C40_round_trip (N : Nat) (r : Rx) (hb : r.buffer.length = N + 4) (h0 : r.received = 0) (content : List Byte)
    (header command : Byte) (payload : List Byte) (hc : IsContent content header command payload) (hp : payload.length ≤ N)
    (hw : payload.length + 4 < 2 ^ sizeBits N) (tail : List Byte) :
    ∃ r', (update N r (0x7e#8 :: stuff content ++ 0x7e#8 :: tail) = some (r', tail) ∨
        ∃ q, isMessageAvailable q = true ∧ update N r (0x7e#8 :: stuff content ++ 0x7e#8 :: tail) = some (q, stuff content ++ 0x7e#8 :: tail) ∧
          update N (dropMessage q) (stuff content ++ 0x7e#8 :: tail) = some (r', tail)) ∧
      r'.buffer.length = N + 4 ∧
      isMessageAvailable r' = true ∧ getAddress r' = header &&& 0x3f#8 ∧ getCommand r' = command ∧
      isResponse r' = decide (header &&& 0x80#8 ≠ 0#8) ∧ isAcknowledge r' = decide (header &&& 0x40#8 ≠ 0#8) ∧
      getPayloadLength N r' = payload.length ∧ getPayload N r' = payload := by
  obtain ⟨rest', g1, g2⟩ := receive N r.buffer hb content header command payload hc hp hw tail
  have hg := getters N content rest' header command payload hc hw crcInitialValue 0 false
  refine ⟨_, ?_, g1, hg⟩
  have e : step N r 0x7e#8 = some (boundary r) := rfl
  rw [List.cons_append, update_cons N r _ _ _ h0 e]
  obtain ⟨buf, crc, l, rec, esc⟩ := r
  simp only at h0 hb g2
  subst h0
  by_cases hm : esc = false ∧ l ≥ 4 ∧ crc = 0#16
  · right
    refine ⟨⟨buf, crcInitialValue, 0, l, false⟩, ?_, ?_, g2⟩
    · simp [isMessageAvailable]; omega
    · simp only [boundary, if_pos hm]
      cases hx : stuff content ++ 0x7e#8 :: tail with
      | nil => simp at hx
      | cons a as => simp only [update]; rw [if_pos (by omega)]
  · left
    simp only [boundary, if_neg hm]
    exact g2

/-- C40: round trip of `sendMessage` from the initial state. -/
theorem C40_round_trip_initial (N : Nat) (address : Byte) (ha : address.toNat < 64) (flags : Flags) (command : Byte) (payload : List Byte)
    (hp : payload.length ≤ N) (hw : payload.length + 4 < 2 ^ sizeBits N) :
    ∃ r', update N (Rx.init N) (sendMessage address flags command payload) = some (r', []) ∧
      isMessageAvailable r' = true ∧ getAddress r' = address ∧ getCommand r' = command ∧
      isResponse r' = decide (flags ≠ .request) ∧ isAcknowledge r' = decide (flags = .ack) ∧
      getPayloadLength N r' = payload.length ∧ getPayload N r' = payload := by
  obtain ⟨content, hc, e⟩ := C40_sends_frame address flags command payload
  obtain ⟨rest', g1, g2⟩ := receive N (Rx.init N).buffer (by simp [Rx.init]) content _ command payload hc hp hw []
  obtain ⟨e1, e2, e3⟩ := Props.Sab.header_bits address flags ha
  have hg := getters N content rest' _ command payload hc hw crcInitialValue 0 false
  rw [e1, e2, e3] at hg
  refine ⟨_, ?_, hg⟩
  rw [e, List.cons_append, update_cons N (Rx.init N) (Rx.init N) _ _ rfl rfl]
  exact g2

/-- the length condition holds for every payload of at most `N` bytes unless `N` is 252, 253, 254 or above 65531 -/
theorem size_fits (N n : Nat) (hn : n ≤ N) (hN : N < 252 ∨ (255 ≤ N ∧ N < 65532)) : n + 4 < 2 ^ sizeBits N := by
  unfold sizeBits; split <;> simp <;> omega

example : (update 32 (Rx.init 32) (sendMessage 0x02#8 .request 0x7e#8 [0x7d#8, 0x5e#8, 0x00#8] ++ [0x01#8])).map
    (fun p => (getPayload 32 p.1, getCommand p.1, p.2)) = some ([0x7d#8, 0x5e#8, 0x00#8], 0x7e#8, [0x01#8]) := by decide +kernel

/-! ### C41: every byte stream -/

inductive Op
  /-- `update()` while these bytes can be read -/
  | update (bytes : List Byte)
  | drop

def apply (N : Nat) (r : Rx) : Op → Option Rx
  | .update bs => (update N r bs).map Prod.fst
  | .drop => some (dropMessage r)

def Safe (N : Nat) (r : Rx) : Prop := r.buffer.length = N + 4 ∧ r.received ≤ N + 4 ∧ r.length ≤ N + 4 ∧ (r.received ≠ 0 → 4 ≤ r.received)

theorem step_safe (N : Nat) (r : Rx) (h : Safe N r) (b : Byte) : ∃ r', step N r b = some r' ∧ Safe N r' := by
  obtain ⟨h1, h2, h3, h4⟩ := h
  have hs : ∀ (r : Rx) (d : Byte), r.buffer.length = N + 4 → r.received ≤ N + 4 → r.length ≤ N + 4 → (r.received ≠ 0 → 4 ≤ r.received) →
      ∃ r', store N r d = some r' ∧ Safe N r' := by
    intro r d h1 h2 h3 h4
    unfold store
    by_cases hg : r.length ≥ N + 4
    · rw [if_pos hg]; exact ⟨_, rfl, h1, h2, by simp, h4⟩
    · rw [if_neg hg, if_pos (by omega)]
      refine ⟨_, rfl, by simpa using h1, h2, ?_, h4⟩
      have := Nat.mod_le (r.length + 1) (2 ^ sizeBits N)
      simp only; omega
  unfold step
  split
  · refine ⟨_, rfl, h1, ?_, by simp [boundary], ?_⟩
    · simp only [boundary]; split <;> omega
    · simp only [boundary]; split <;> intro hx <;> omega
  · split
    · exact ⟨_, rfl, h1, h2, h3, h4⟩
    · exact hs _ _ h1 h2 h3 h4

theorem update_safe (N : Nat) (bs : List Byte) : ∀ r, Safe N r → ∃ r' rest, update N r bs = some (r', rest) ∧ Safe N r' := by
  induction bs with
  | nil => intro r h; exact ⟨r, [], rfl, h⟩
  | cons b bs ih =>
    intro r h
    by_cases h0 : r.received = 0
    · obtain ⟨r1, e1, h1⟩ := step_safe N r h b
      rw [update_cons N r r1 b bs h0 e1]
      exact ih r1 h1
    · exact ⟨r, b :: bs, by rw [update, if_pos h0], h⟩

/-- C41 (memory safety), every buffer size and history: no write outside the buffer, and an available message has between 4
and `N+4` bytes. -/
theorem C41_memory_safe (N : Nat) (ops : List Op) : ∃ r, ops.foldlM (apply N) (Rx.init N) = some r ∧ r.buffer.length = N + 4 ∧
    r.received ≤ N + 4 ∧ (isMessageAvailable r = true → 4 ≤ r.received) := by
  suffices h : ∀ (ops : List Op) r, Safe N r → ∃ r', ops.foldlM (apply N) r = some r' ∧ Safe N r' by
    obtain ⟨r, h1, h2, h3, h4, h5⟩ := h ops (Rx.init N) ⟨by simp [Rx.init], by simp [Rx.init], by simp [Rx.init], by simp [Rx.init]⟩
    exact ⟨r, h1, h2, h3, fun ha => h5 (by simpa [isMessageAvailable] using ha)⟩
  intro ops
  induction ops with
  | nil => intro r h; exact ⟨r, rfl, h⟩
  | cons o ops ih =>
    intro r h
    have : ∃ r', apply N r o = some r' ∧ Safe N r' := by
      cases o with
      | update bs =>
        obtain ⟨r', rest, h1, h2⟩ := update_safe N bs r h
        exact ⟨r', by simp [apply, h1], h2⟩
      | drop => exact ⟨_, rfl, h.1, by simp [dropMessage], h.2.2.1, by simp [dropMessage]⟩
    obtain ⟨r1, e1, h1⟩ := this
    obtain ⟨r2, e2, h2⟩ := ih r1 h1
    exact ⟨r2, by rw [List.foldlM_cons, e1]; exact e2, h2⟩

/-- C41 (message not changed while pending): `update()` reads nothing and changes nothing while a message is available. -/
theorem C41_pending_untouched (N : Nat) (r : Rx) (h : isMessageAvailable r = true) (bs : List Byte) :
    update N r bs = some (r, bs) := by
  cases bs with
  | nil => rfl
  | cons b bs =>
    have : r.received ≠ 0 := by simpa [isMessageAvailable] using h
    rw [update, if_pos this]

/-- an ordinary byte for a full buffer -/
theorem update_full (N : Nat) (buf : List Byte) (crc : BitVec 16) (x : Byte) (bs : List Byte) :
    update N ⟨buf, crc, N + 4, 0, false⟩ (writeByteEscaped x ++ bs) = update N ⟨buf, crc, 0, 0, false⟩ bs := by
  have hst : ∀ d e, store N ⟨buf, crc, N + 4, 0, e⟩ d = some ⟨buf, crc, 0, 0, e⟩ := by
    intro d e; unfold store; rw [if_pos (Nat.le_refl _)]
  unfold writeByteEscaped
  by_cases h : x = frameBounderyByte ∨ x = controlEscapeByte
  · rw [if_pos h]
    have e1 : step N ⟨buf, crc, N + 4, 0, false⟩ controlEscapeByte = some ⟨buf, crc, N + 4, 0, true⟩ := rfl
    have e2 : step N ⟨buf, crc, N + 4, 0, true⟩ (x ^^^ 0x20#8) = some ⟨buf, crc, 0, 0, false⟩ := by
      rw [← hst x false]
      rcases h with rfl | rfl <;> rfl
    rw [List.cons_append, List.cons_append, List.nil_append, update_cons N _ _ _ _ rfl e1, update_cons N _ _ _ _ rfl e2]
  · rw [if_neg h]
    push Not at h
    have e2 : step N ⟨buf, crc, N + 4, 0, false⟩ x = some ⟨buf, crc, 0, 0, false⟩ := by
      rw [← hst x false]; simp [step, h.1, h.2]
    rw [List.cons_append, List.nil_append, update_cons N _ _ _ _ rfl e2]

theorem stuff_append (a b : List Byte) : stuff (a ++ b) = stuff a ++ stuff b := by
  rw [stuff_eq, stuff_eq, stuff_eq, List.flatMap_append]

/-- state after an over-long frame of `N+4` bytes `d`, one more byte `x` and at most `N+4` further bytes `t` -/
theorem overlong_state (N : Nat) (hw : N + 4 < 2 ^ sizeBits N) (d t : List Byte) (x : Byte) (hd : d.length = N + 4) (ht : t.length ≤ N + 4)
    (bs : List Byte) :
    ∃ rest', (t ++ rest').length = N + 4 ∧ update N (Rx.init N) (0x7e#8 :: stuff (d ++ x :: t) ++ bs) =
      update N ⟨t ++ rest', t.foldl crcUpdate (d.foldl crcUpdate 0xffff#16), t.length, 0, false⟩ bs := by
  obtain ⟨r1, g1, g2⟩ := update_content N d [] (List.replicate (N + 4) 0#8) crcInitialValue (stuff (x :: t) ++ bs) (by simp) (by simp; omega)
    (by simp; omega)
  have hr1 : r1 = [] := by
    simp [hd] at g1; exact g1
  subst hr1
  simp only [List.nil_append, List.length_nil, Nat.zero_add, List.append_nil, hd] at g2
  obtain ⟨r2, g3, g4⟩ := update_content N t [] d (d.foldl crcUpdate crcInitialValue) bs (by simpa using hd) (by simp; omega) (by simp; omega)
  simp only [List.nil_append, List.length_nil, Nat.zero_add] at g3 g4
  refine ⟨r2, g3, ?_⟩
  rw [List.cons_append, update_cons N (Rx.init N) (Rx.init N) _ _ rfl rfl, stuff_append, List.append_assoc]
  have : Rx.init N = ⟨List.replicate (N + 4) 0#8, crcInitialValue, 0, 0, false⟩ := rfl
  rw [this, g2]
  have e : stuff (x :: t) = writeByteEscaped x ++ stuff t := by rw [stuff_eq, stuff_eq, List.flatMap_cons]
  rw [e, List.append_assoc, update_full, g4]
  rfl

/-- C41 is false for every buffer size (for which `Size` does not wrap): whatever the first `N+4` content bytes and the next
byte are, the frame can be continued such that it is reported, with header and command taken from behind the buffer end. -/
theorem C41_overlong_reported_counterexample (N : Nat) (hw : N + 4 < 2 ^ sizeBits N) (d : List Byte) (hd : d.length = N + 4)
    (x header command : Byte) : ∃ lo hi r, update N (Rx.init N) (0x7e#8 :: stuff (d ++ [x, header, command, lo, hi]) ++ [0x7e#8]) = some (r, []) ∧
      isMessageAvailable r = true ∧ getCommand r = command ∧ getAddress r = header &&& 0x3f#8 := by
  obtain ⟨c, hcd⟩ : ∃ c, c = [header, command].foldl crcUpdate (d.foldl crcUpdate 0xffff#16) := ⟨_, rfl⟩
  obtain ⟨rest, g1, g2⟩ := overlong_state N hw d [header, command, c.setWidth 8, (c >>> 8).setWidth 8] x hd (by simp) [0x7e#8]
  have hc : [header, command, c.setWidth 8, (c >>> 8).setWidth 8].foldl crcUpdate (d.foldl crcUpdate 0xffff#16) = 0#16 := by
    have e : [header, command, c.setWidth 8, (c >>> 8).setWidth 8] = [header, command] ++ [c.setWidth 8, (c >>> 8).setWidth 8] := rfl
    rw [e, List.foldl_append, ← hcd]
    exact (crc_closes c _ _).2 ⟨rfl, rfl⟩
  refine ⟨c.setWidth 8, (c >>> 8).setWidth 8,
    ⟨[header, command, c.setWidth 8, (c >>> 8).setWidth 8] ++ rest, crcInitialValue, 0, 4, false⟩, ?_, ?_⟩
  · rw [g2, hc]; simp [update, step, boundary, frameBounderyByte]
  · exact ⟨rfl, rfl, rfl⟩

/-- C41 (what holds): a frame that exceeds the buffer by one to four bytes is not reported. Missing: longer frames, see
the counterexample. -/
theorem C41_overlong_partial (N : Nat) (hw : N + 4 < 2 ^ sizeBits N) (content : List Byte) (h1 : N + 4 < content.length)
    (h2 : content.length ≤ N + 8) :
    ∃ r, update N (Rx.init N) (0x7e#8 :: stuff content ++ [0x7e#8]) = some (r, []) ∧ isMessageAvailable r = false := by
  obtain ⟨x, t, e⟩ : ∃ x t, content.drop (N + 4) = x :: t := by
    cases hx : content.drop (N + 4) with
    | nil => rw [List.drop_eq_nil_iff] at hx; omega
    | cons x t => exact ⟨x, t, rfl⟩
  have hc : content = content.take (N + 4) ++ x :: t := by rw [← e, List.take_append_drop]
  have ht : t.length ≤ 3 := by
    have := congrArg List.length e; simp at this; omega
  obtain ⟨rest, g1, g2⟩ := overlong_state N hw (content.take (N + 4)) t x (by simp; omega) (by omega) [0x7e#8]
  rw [hc, g2]
  refine ⟨_, rfl, ?_⟩
  simp only [isMessageAvailable, boundary]
  rw [if_neg (by omega)]; rfl

/-- `Size` wraps: for `N` = 252, 253 or 254 a frame with 252 or more payload bytes is never reported although it fits the
buffer. -/
theorem C40_size_wraps_counterexample (N : Nat) (hN : 252 ≤ N ∧ N ≤ 254) (content : List Byte) (header command : Byte)
    (payload : List Byte) (hc : IsContent content header command payload) (hp : 252 ≤ payload.length ∧ payload.length ≤ N) :
    ∃ r, update N (Rx.init N) (0x7e#8 :: stuff content ++ [0x7e#8]) = some (r, []) ∧ isMessageAvailable r = false := by
  have hs : sizeBits N = 8 := by unfold sizeBits; rw [if_neg (by omega)]
  have hl : content.length = payload.length + 4 := by obtain ⟨c, _, rfl⟩ := hc; simp
  obtain ⟨x, t, e⟩ : ∃ x t, content.drop 255 = x :: t := by
    cases hx : content.drop 255 with
    | nil => rw [List.drop_eq_nil_iff] at hx; omega
    | cons x t => exact ⟨x, t, rfl⟩
  have hcc : content = content.take 255 ++ x :: t := by rw [← e, List.take_append_drop]
  have ht : t.length ≤ 2 := by
    have := congrArg List.length e; simp at this; omega
  have hd : (content.take 255).length = 255 := by simp; omega
  generalize content.take 255 = d at hcc hd
  obtain ⟨r1, g1, g2⟩ := update_content N d [] (List.replicate (N + 4) 0#8) crcInitialValue (stuff (x :: t) ++ [0x7e#8]) (by simp)
    (by simp; omega) (by simp [hs]; omega)
  simp only [List.nil_append, List.length_nil, Nat.zero_add, hd] at g2 g1
  simp only [List.length_append, hd] at g1
  obtain ⟨y, r1, rfl⟩ : ∃ y r, r1 = y :: r := by
    cases r1 with
    | nil => simp at g1; omega
    | cons y r => exact ⟨y, r, rfl⟩
  have hst : ∀ e, store N ⟨d ++ y :: r1, d.foldl crcUpdate crcInitialValue, 255, 0, e⟩ x =
      some ⟨d ++ x :: r1, crcUpdate (d.foldl crcUpdate crcInitialValue) x, 0, 0, e⟩ := by
    intro e
    unfold store
    simp only [List.length_append, hd, hs]
    rw [if_neg (by omega), if_pos (by simp), List.set_append_right _ _ (by omega), hd]
    rfl
  have hx : ∀ bs, update N ⟨d ++ y :: r1, d.foldl crcUpdate crcInitialValue, 255, 0, false⟩ (writeByteEscaped x ++ bs) =
      update N ⟨d ++ x :: r1, crcUpdate (d.foldl crcUpdate crcInitialValue) x, 0, 0, false⟩ bs := by
    intro bs
    unfold writeByteEscaped
    by_cases h : x = frameBounderyByte ∨ x = controlEscapeByte
    · rw [if_pos h]
      have e1 : step N ⟨d ++ y :: r1, d.foldl crcUpdate crcInitialValue, 255, 0, false⟩ controlEscapeByte =
        some ⟨d ++ y :: r1, d.foldl crcUpdate crcInitialValue, 255, 0, true⟩ := rfl
      have e2 : step N ⟨d ++ y :: r1, d.foldl crcUpdate crcInitialValue, 255, 0, true⟩ (x ^^^ 0x20#8) =
          some ⟨d ++ x :: r1, crcUpdate (d.foldl crcUpdate crcInitialValue) x, 0, 0, false⟩ := by
        rw [← hst false]
        rcases h with rfl | rfl <;> rfl
      rw [List.cons_append, List.cons_append, List.nil_append, update_cons N _ _ _ _ rfl e1, update_cons N _ _ _ _ rfl e2]
    · rw [if_neg h]
      push Not at h
      have e2 : step N ⟨d ++ y :: r1, d.foldl crcUpdate crcInitialValue, 255, 0, false⟩ x =
          some ⟨d ++ x :: r1, crcUpdate (d.foldl crcUpdate crcInitialValue) x, 0, 0, false⟩ := by
        rw [← hst false]; simp [step, h.1, h.2]
      rw [List.cons_append, List.nil_append, update_cons N _ _ _ _ rfl e2]
  obtain ⟨r2, g3, g4⟩ := update_content N t [] (d ++ x :: r1) (crcUpdate (d.foldl crcUpdate crcInitialValue) x) [0x7e#8]
    (by simp at *; omega) (by simp; omega) (by simp [hs]; omega)
  simp only [List.nil_append, List.length_nil, Nat.zero_add] at g4
  have e2 : stuff (x :: t) = writeByteEscaped x ++ stuff t := by rw [stuff_eq, stuff_eq, List.flatMap_cons]
  have : Rx.init N = ⟨List.replicate (N + 4) 0#8, crcInitialValue, 0, 0, false⟩ := rfl
  rw [List.cons_append, update_cons N (Rx.init N) (Rx.init N) _ _ rfl rfl, hcc, stuff_append, List.append_assoc, this, g2, e2,
    List.append_assoc, hx, g4]
  refine ⟨_, rfl, ?_⟩
  simp only [isMessageAvailable, boundary]
  rw [if_neg (by omega)]; rfl

/-! ### C53: corrupted frames -/

/-- C53 (what holds): replacing one or two adjacent content bytes by any others (in stuffed form) makes the receiver ignore
the frame. Missing: changes on the wire that create or remove boundary or escape bytes. -/
theorem C53_corrupted_content_partial (N : Nat) (content pre x y post : List Byte) (header command : Byte) (payload : List Byte)
    (hc : IsContent content header command payload) (hp : payload.length ≤ N) (hw : payload.length + 4 < 2 ^ sizeBits N)
    (e : content = pre ++ x ++ post) (hl : x.length = y.length) (h2 : x.length ≤ 2) (hne : x ≠ y) :
    ∃ r, update N (Rx.init N) (0x7e#8 :: stuff (pre ++ y ++ post) ++ [0x7e#8]) = some (r, []) ∧ isMessageAvailable r = false := by
  have hlen : content.length = payload.length + 4 := by obtain ⟨c, _, rfl⟩ := hc; simp
  have hlen2 : (pre ++ y ++ post).length = payload.length + 4 := by rw [← hlen, e]; simp [hl]
  obtain ⟨rest', g1, g2⟩ := update_content N (pre ++ y ++ post) [] (List.replicate (N + 4) 0#8) crcInitialValue [0x7e#8] (by simp)
    (by rw [hlen2]; simp; omega) (by rw [hlen2]; simpa using hw)
  have hz := content_crc _ _ _ _ hc
  have hnz : (pre ++ y ++ post).foldl crcUpdate 0xffff#16 ≠ 0#16 := by
    intro h0
    refine absurd (hz.trans h0.symm) ?_
    rw [e, crc_fold, crc_fold, bits_append, bits_append, bits_append, bits_append]
    apply burst (by decide) (by decide)
    · rw [bits_length, bits_length, hl]
    · rw [bits_length]; omega
    · exact fun h => hne (bits_inj x y hl h)
  have : Rx.init N = ⟨List.replicate (N + 4) 0#8, crcInitialValue, 0, 0, false⟩ := rfl
  simp only [List.nil_append, List.length_nil, Nat.zero_add] at g2
  rw [List.cons_append, update_cons N (Rx.init N) (Rx.init N) _ _ rfl rfl, this, g2]
  refine ⟨_, rfl, ?_⟩
  simp only [isMessageAvailable, boundary]
  rw [if_neg (fun h => hnz h.2.2)]; rfl

/-- C53 is false: one altered byte on the wire that becomes a boundary byte can end the frame where the content so far has a
valid checksum; the receiver then reports a message nobody sent (address 1, command 2, no payload). -/
theorem C53_boundary_counterexample :
    let payload := [0x81#8, 0xE1#8, 0x55#8]
    let wire := sendMessage 0x01#8 .request 0x02#8 payload
    wire[5]? = some 0x55#8 ∧
    (update 32 (Rx.init 32) (wire.set 5 0x7e#8)).map (fun p => (isMessageAvailable p.1, getAddress p.1, getCommand p.1, getPayload 32 p.1))
      = some (true, 0x01#8, 0x02#8, []) := by decide +kernel

example : IsContent [0x01#8, 0x02#8, 0x81#8, 0xE1#8] 0x01#8 0x02#8 [] :=
  ⟨0xE181#16, (crc_isCrc _ _).2 (by decide +kernel), by decide⟩

/-! ### C54: only frames are reported -/

/-- `r` is a receiver state after the bytes `h` were read, with `dropMessage()` at any times -/
inductive Hist (N : Nat) : List Byte → Rx → Prop
  | init : Hist N [] (Rx.init N)
  | byte {h r b r'} : Hist N h r → r.received = 0 → step N r b = some r' → Hist N (h ++ [b]) r'
  | drop {h r} : Hist N h r → Hist N h (dropMessage r)

def escAfter : Bool → List Byte → Bool
  | e, [] => e
  | _, b :: bs => escAfter (b == 0x7d#8) bs

theorem unstuff_snoc (l : List Byte) (b : Byte) : ∀ e, unstuff e (l ++ [b]) =
    unstuff e l ++ (if b = 0x7d#8 then [] else [if escAfter e l then b ^^^ 0x20#8 else b]) := by
  induction l with
  | nil => intro e; by_cases h : b = 0x7d#8 <;> cases e <;> simp [unstuff, escAfter, h]
  | cons a l ih =>
    intro e
    by_cases h : a = 0x7d#8
    · simp [unstuff, escAfter, h, ih]
    · have : (a == 0x7d#8) = false := by simpa using h
      simp [unstuff, escAfter, h, ih, this]

theorem escAfter_snoc (l : List Byte) (b : Byte) : ∀ e, escAfter e (l ++ [b]) = (b == 0x7d#8) := by
  induction l with
  | nil => intro e; rfl
  | cons a l ih => intro e; exact ih _

/-- while no over-long content was seen, the buffer holds the content since the last boundary -/
structure Sync (N : Nat) (h : List Byte) (r : Rx) : Prop where
  buf : r.buffer.length = N + 4
  seg : ∃ pre seg, h = pre ++ seg ∧ (pre = [] ∨ ∃ p, pre = p ++ [0x7e#8]) ∧ 0x7e#8 ∉ seg ∧
    r.nextEscaped = escAfter false seg ∧
    ((unstuff false seg).length ≤ N + 4 → r.length = (unstuff false seg).length ∧
      r.crc = (unstuff false seg).foldl crcUpdate 0xffff#16 ∧ ∃ rest, r.buffer = unstuff false seg ++ rest)

theorem hist_sync (N : Nat) (hw : N + 4 < 2 ^ sizeBits N) (h : List Byte) (r : Rx) (hh : Hist N h r) : Sync N h r := by
  induction hh with
  | init => exact ⟨by simp [Rx.init], [], [], rfl, .inl rfl, by simp, rfl, fun _ => ⟨rfl, rfl, _, rfl⟩⟩
  | drop _ ih => exact ⟨ih.buf, ih.seg⟩
  | @byte h r b r' _ h0 hs ih =>
    obtain ⟨hb, pre, seg, e, hp, hn, he, hi⟩ := ih
    unfold step at hs
    by_cases h1 : b = frameBounderyByte
    · rw [if_pos h1] at hs
      obtain rfl := Option.some.inj hs
      exact ⟨hb, h ++ [b], [], by simp, .inr ⟨h, by rw [h1]; rfl⟩, by simp, rfl, fun _ => ⟨rfl, rfl, _, rfl⟩⟩
    · rw [if_neg h1] at hs
      have hn' : 0x7e#8 ∉ seg ++ [b] := by
        simp only [List.mem_append, List.mem_singleton, not_or]; exact ⟨hn, fun h => h1 h.symm⟩
      by_cases h2 : b = controlEscapeByte
      · rw [if_pos h2] at hs
        obtain rfl := Option.some.inj hs
        have hb7 : b = 0x7d#8 := h2
        refine ⟨hb, pre, seg ++ [b], by rw [e]; simp, hp, hn', by rw [escAfter_snoc, hb7]; rfl, ?_⟩
        rw [unstuff_snoc, if_pos hb7, List.append_nil]
        exact hi
      · rw [if_neg h2] at hs
        have hb7 : ¬ b = 0x7d#8 := h2
        have hst : r'.buffer.length = N + 4 ∧ r'.nextEscaped = false := by
          unfold store at hs
          split at hs
          · obtain rfl := Option.some.inj hs; exact ⟨hb, rfl⟩
          · split at hs
            · obtain rfl := Option.some.inj hs; exact ⟨by simpa using hb, rfl⟩
            · cases hs
        refine ⟨hst.1, pre, seg ++ [b], by rw [e]; simp, hp, hn', by rw [escAfter_snoc, hst.2]; simp [hb7], ?_⟩
        rw [unstuff_snoc, if_neg hb7, ← he]
        intro hl
        simp only [List.length_append, List.length_cons, List.length_nil] at hl
        obtain ⟨i1, i2, rest, i3⟩ := hi (by omega)
        unfold store at hs
        simp only [i1] at hs
        rw [if_neg (by omega), if_pos (by omega), Nat.mod_eq_of_lt (by omega)] at hs
        obtain rfl := Option.some.inj hs
        obtain ⟨x, rest, rfl⟩ : ∃ x t, rest = x :: t := by
          cases rest with
          | nil => rw [i3] at hb; simp at hb; omega
          | cons x t => exact ⟨x, t, rfl⟩
        refine ⟨by simp, by simp only; rw [List.foldl_append, ← i2]; rfl, rest, ?_⟩
        simp only [i3]
        rw [List.set_append_right _ _ (Nat.le_refl _)]
        simp

/-- C54 (what holds): a message becomes available only at a boundary byte; the bytes since the previous boundary do not end in
an escape byte and, unless they are over-long, are the stuffed content of a frame with valid checksum, and address, command and
payload are those of that frame. Missing: over-long frames. -/
theorem C54_reported_is_frame_partial (N : Nat) (hw : N + 4 < 2 ^ sizeBits N) (h : List Byte) (r : Rx) (hh : Hist N h r) (h0 : isMessageAvailable r = false)
    (b : Byte) (r' : Rx) (hs : step N r b = some r') (h1 : isMessageAvailable r' = true) :
    b = 0x7e#8 ∧ ∃ pre seg, h = pre ++ seg ∧ (pre = [] ∨ ∃ p, pre = p ++ [0x7e#8]) ∧ 0x7e#8 ∉ seg ∧
      ((unstuff false seg).length ≤ N + 4 → ∃ header command payload, IsContent (unstuff false seg) header command payload ∧
        getAddress r' = header &&& 0x3f#8 ∧ getCommand r' = command ∧
        isResponse r' = decide (header &&& 0x80#8 ≠ 0#8) ∧ isAcknowledge r' = decide (header &&& 0x40#8 ≠ 0#8) ∧
        getPayload N r' = payload) := by
  have h0' : r.received = 0 := by simpa [isMessageAvailable] using h0
  have h1' : r'.received ≠ 0 := by simpa [isMessageAvailable] using h1
  obtain ⟨hb, pre, seg, e, hp, hn, he, hi⟩ := hist_sync N hw h r hh
  unfold step at hs
  by_cases hbb : b = frameBounderyByte
  · rw [if_pos hbb] at hs
    obtain rfl := Option.some.inj hs
    refine ⟨hbb, pre, seg, e, hp, hn, ?_⟩
    intro hl
    obtain ⟨i1, i2, rest, i3⟩ := hi hl
    simp only [boundary] at h1'
    by_cases hc : r.nextEscaped = false ∧ r.length ≥ 4 ∧ r.crc = 0#16
    · rw [if_pos hc] at h1'
      obtain ⟨header, command, l, hu⟩ : ∃ a c l, unstuff false seg = a :: c :: l := by
        match hx : unstuff false seg with
        | [] => rw [hx] at i1; simp at i1; omega
        | [_] => rw [hx] at i1; simp at i1; omega
        | a :: c :: l => exact ⟨a, c, l, rfl⟩
      obtain ⟨payload, k1, k2, _⟩ := content_of_crc header command l (by rw [hu] at i1; simp at i1; omega) (by rw [← hu, ← i2]; exact hc.2.2)
      have hlen : r.length = payload.length + 4 := by rw [i1, hu]; simp; omega
      have hg := getters N (unstuff false seg) rest header command payload (by rw [hu]; exact k2) (by omega) crcInitialValue 0 false
      refine ⟨header, command, payload, by rw [hu]; exact k2, ?_⟩
      simp only [boundary, if_pos hc]
      simp only [hlen, i3]
      exact ⟨hg.2.1, hg.2.2.1, hg.2.2.2.1, hg.2.2.2.2.1, hg.2.2.2.2.2.2⟩
    · rw [if_neg hc] at h1'; exact absurd h0' h1'
  · exfalso
    rw [if_neg hbb] at hs
    split at hs
    · obtain rfl := Option.some.inj hs; exact h1' h0'
    · unfold store at hs
      split at hs
      · obtain rfl := Option.some.inj hs; exact h1' h0'
      · split at hs
        · obtain rfl := Option.some.inj hs; exact h1' h0'
        · cases hs

/-- `unstuff` inverts `stuff`, so the frame found is the one that was sent -/
theorem unstuff_stuff (l : List Byte) : unstuff false (stuff l) = l := by
  induction l with
  | nil => rfl
  | cons b l ih =>
    by_cases h1 : b = 0x7e#8
    · subst h1; simp [stuff, unstuff, ih]
    · by_cases h2 : b = 0x7d#8
      · subst h2; simp [stuff, unstuff, ih]
      · simp [stuff, unstuff, h1, h2, ih]

end Props.Sab2
