import Verif.Model.Sab
import Verif.Spec.Sab
import Verif.Props.Crc
set_option autoImplicit false
set_option linter.unusedSimpArgs false
/- Properties C36-C39, C50, C51 (SAB protocol). -/
namespace Props.Sab
open Modm.Sab Spec.Crc Lemmas.Crc
open Polynomial hiding update

/-! ### checksum -/

theorem crcStep_eq (r : Byte) : crcStep r = zstep 0x8C#8 r := by revert r; decide +kernel

theorem crcUpdate_bits (r d : Byte) : crcUpdate r d = (byteBits d).foldl (bstep 0x8C#8) r := by
  rw [foldl_eq_zsteps _ _ _ (by simp [byteBits]), byteBits_length, pack_byteBits, crcUpdate, loop_zsteps _ _ crcStep_eq]
  simp

theorem crc_fold (m : List Byte) (r : Byte) : m.foldl crcUpdate r = (bits m).foldl (bstep 0x8C#8) r := by
  rw [foldl_bits]; congr 1; funext r b; exact crcUpdate_bits r b

theorem gen_8C : gen 0x8C#8 = (X ^ 8 + X ^ 5 + X ^ 4 + 1 : F2[X]) := by
  simp [gen, regPoly, Finset.sum_range_succ, co]; ring

theorem crc_isCrc (m : List Byte) (c : Byte) : Spec.Sab.IsCrc m c ↔ m.foldl crcUpdate 0#8 = c := by
  unfold Spec.Sab.IsCrc
  have h := foldl_mod (by decide) 0x8C#8 (bits m) 0#8
  rw [regPoly_zero, zero_mul, zero_add, ← crc_fold, gen_8C] at h
  rw [← h]
  exact ⟨fun h => (regPoly_inj h).symm, fun h => by rw [h]⟩

theorem crcUpdate_eq_zero (c d : Byte) : crcUpdate c d = 0#8 ↔ c = d := by
  rw [crcUpdate, loop_zsteps _ _ crcStep_eq]
  constructor
  · intro h
    have := zsteps_inj (p := 0x8C#8) (by decide) (by decide) 8 (h.trans (zsteps_zero 0x8C#8 8).symm)
    exact xor_eq_zero.1 this
  · rintro rfl; rw [xor_eq_zero.2 rfl]; exact zsteps_zero _ _

/-! ### receiving the data bytes of a frame -/

theorem update_append (r : Rx) (a b : List Byte) : update r (a ++ b) = (update r a).bind (update · b) := by
  unfold update; rw [List.foldlM_append]; rfl

theorem step_data (st : State) (pre rest : List Byte) (x crc : Byte) (length received : Nat) (b : Byte)
    (hst : st = .data) (hl : (pre ++ x :: rest).length = 35) :
    step ⟨st, pre ++ x :: rest, crc, pre.length, length, received⟩ b =
      some (finish ⟨.data, pre ++ b :: rest, crcUpdate crc b, pre.length + 1, length, received⟩) := by
  subst hst
  simp only [List.length_append, List.length_cons] at hl
  simp only [step, List.length_append, List.length_cons]
  rw [if_pos (by omega), List.set_append_right _ _ (Nat.le_refl _), Nat.sub_self, List.set_cons_zero, Nat.mod_eq_of_lt (by omega)]

/-- the data bytes of a frame: `pre` has already been received -/
theorem update_data (ds : List Byte) : ∀ (pre rest : List Byte) (crc : Byte) (received : Nat),
    0 < ds.length → (pre ++ rest).length = 35 → pre.length + ds.length ≤ 35 →
    ∃ rest', (pre ++ ds ++ rest').length = 35 ∧
    update ⟨.data, pre ++ rest, crc, pre.length, pre.length + ds.length, received⟩ ds =
      some ⟨.sync, pre ++ ds ++ rest', ds.foldl crcUpdate crc, pre.length + ds.length, pre.length + ds.length,
        if ds.foldl crcUpdate crc = 0#8 then pre.length + ds.length else received⟩ := by
  induction ds with
  | nil => intro _ _ _ _ h; simp at h
  | cons d ds ih =>
    intro pre rest crc received _ hl hle
    simp only [List.length_append, List.length_cons] at hl hle
    obtain ⟨x, rest, rfl⟩ : ∃ x r, rest = x :: r := by
      cases rest with
      | nil => simp at hl; omega
      | cons x r => exact ⟨x, r, rfl⟩
    have hs := step_data .data pre rest x crc (pre.length + (ds.length + 1)) received d rfl (by simp at *; omega)
    simp only [update, List.foldlM_cons, List.length_cons]
    rw [hs]
    simp only [Option.bind_eq_bind, Option.bind_some, List.length_cons]
    by_cases hds : ds = []
    · subst hds
      refine ⟨rest, by simp at *; omega, ?_⟩
      simp [finish]
    · have hpos : 0 < ds.length := List.length_pos_iff.2 hds
      have hf : finish ⟨.data, pre ++ d :: rest, crcUpdate crc d, pre.length + 1, pre.length + (ds.length + 1), received⟩
          = ⟨.data, (pre ++ [d]) ++ rest, crcUpdate crc d, (pre ++ [d]).length, (pre ++ [d]).length + ds.length, received⟩ := by
        simp only [finish]
        rw [if_neg (by simp; omega)]
        simp; omega
      rw [hf]
      obtain ⟨rest', h1, h2⟩ := ih (pre ++ [d]) rest (crcUpdate crc d) received hpos (by simp at *; omega) (by simp at *; omega)
      refine ⟨rest', by simpa using h1, ?_⟩
      rw [update] at h2
      rw [h2]
      simp
      refine ⟨by omega, ?_⟩
      congr 1; omega

/-- a whole frame, whatever its last byte -/
theorem update_frame (r : Rx) (hs : r.state = .sync) (hb : r.buffer.length = 35) (n : Nat) (hn : n ≤ 32) (data : List Byte)
    (hd : data.length = n + 3) :
    ∃ rest', (data ++ rest').length = 35 ∧
    update r (syncByte :: BitVec.ofNat 8 n :: data) =
      some ⟨.sync, data ++ rest', (BitVec.ofNat 8 n :: data).foldl crcUpdate 0#8, n + 3, n + 3,
        if (BitVec.ofNat 8 n :: data).foldl crcUpdate 0#8 = 0#8 then n + 3 else r.received⟩ := by
  obtain ⟨st, buf, crc, pos, len, rec⟩ := r
  simp only at hs hb
  subst hs
  have hn8 : (BitVec.ofNat 8 n).toNat = n := by rw [BitVec.toNat_ofNat]; exact Nat.mod_eq_of_lt (by omega)
  obtain ⟨rest', h1, h2⟩ := update_data data [] buf (crcUpdate 0#8 (BitVec.ofNat 8 n)) rec (by omega) (by simpa using hb)
    (by simp; omega)
  refine ⟨rest', by simpa using h1, ?_⟩
  simp only [List.nil_append, List.length_nil, Nat.zero_add, hd] at h2
  simp only [update, List.foldlM_cons, step, Option.bind_eq_bind, Option.bind_some, if_true, hn8]
  rw [if_neg (by unfold maxPayloadLength; omega), Nat.mod_eq_of_lt (by omega)]
  rw [update] at h2
  exact h2

/-- what the getters say about a received frame -/
theorem getters (data payload rest : List Byte) (header command c : Byte) (hp : payload.length ≤ 32) (crc : Byte) (pos len : Nat)
    (hd : data = header :: command :: payload ++ [c]) :
    let r : Rx := ⟨.sync, data ++ rest, crc, pos, len, payload.length + 3⟩
    isMessageAvailable r = true ∧ getAddress r = header &&& 0x3f#8 ∧ getCommand r = command ∧
    isResponse r = decide (header &&& 0x80#8 ≠ 0#8) ∧ isAcknowledge r = decide (header &&& 0x40#8 ≠ 0#8) ∧
    getPayloadLength r = payload.length ∧ getPayload r = payload := by
  subst hd
  have h2 : payload.length % 256 = payload.length := by omega
  have h3 : payload.length < 256 := by omega
  simp [isMessageAvailable, getAddress, getCommand, isResponse, isAcknowledge, getPayloadLength, getPayload, h2, h3]

/-! ### C36 -/

/-- C36: what is sent is a SAB frame. -/
theorem C36_sends_frame (address : Byte) (flags : Flags) (command : Byte) (payload : List Byte) (hp : payload.length ≤ 32) :
    Spec.Sab.IsFrame (sendMessage address flags command payload) (address ||| flags.val) command payload := by
  refine ⟨hp, _, (crc_isCrc _ _).2 rfl, ?_⟩
  simp [sendMessage, syncByte, crcInitialValue]

theorem receive_frame (r : Rx) (hs : r.state = .sync) (hb : r.buffer.length = 35) (f : List Byte) (header command : Byte)
    (payload : List Byte) (hf : Spec.Sab.IsFrame f header command payload) :
    ∃ rest c crc pos, (header :: command :: payload ++ [c] ++ rest).length = 35 ∧
    update r f = some ⟨.sync, (header :: command :: payload ++ [c]) ++ rest, crc, pos, pos, payload.length + 3⟩ := by
  obtain ⟨hp, c, hc, rfl⟩ := hf
  obtain ⟨rest, h1, h2⟩ := update_frame r hs hb payload.length hp (header :: command :: payload ++ [c]) (by simp)
  refine ⟨rest, c, (BitVec.ofNat 8 payload.length :: (header :: command :: payload ++ [c])).foldl crcUpdate 0#8, payload.length + 3, h1, ?_⟩
  rw [crc_isCrc] at hc
  have e : (BitVec.ofNat 8 payload.length :: (header :: command :: payload ++ [c])).foldl crcUpdate 0#8 = 0#8 := by
    have : (BitVec.ofNat 8 payload.length :: (header :: command :: payload ++ [c])) =
      (BitVec.ofNat 8 payload.length :: header :: command :: payload) ++ [c] := rfl
    rw [this, List.foldl_append, hc]
    exact (crcUpdate_eq_zero c c).2 rfl
  simp only [syncByte] at h2
  have e2 : (0x54#8 :: BitVec.ofNat 8 payload.length :: header :: command :: payload ++ [c]) =
    (0x54#8 :: BitVec.ofNat 8 payload.length :: (header :: command :: payload ++ [c])) := rfl
  rw [e2, h2, e]; rfl

/-- C36: a waiting receiver fed any frame reports exactly its header, command and payload, and waits again. -/
theorem C36_receives_every_frame (r : Rx) (hs : r.state = .sync) (hb : r.buffer.length = 35) (f : List Byte)
    (header command : Byte) (payload : List Byte) (hf : Spec.Sab.IsFrame f header command payload) :
    ∃ r', update r f = some r' ∧ r'.state = .sync ∧ r'.buffer.length = 35 ∧ isMessageAvailable r' = true ∧
      getAddress r' = header &&& 0x3f#8 ∧ getCommand r' = command ∧
      isResponse r' = decide (header &&& 0x80#8 ≠ 0#8) ∧ isAcknowledge r' = decide (header &&& 0x40#8 ≠ 0#8) ∧
      getPayloadLength r' = payload.length ∧ getPayload r' = payload := by
  obtain ⟨rest, c, crc, pos, h1, h2⟩ := receive_frame r hs hb f header command payload hf
  exact ⟨_, h2, rfl, h1, getters _ payload rest header command c hf.1 crc pos pos rfl⟩

theorem header_bits (address : Byte) (flags : Flags) (ha : address.toNat < 64) :
    (address ||| flags.val) &&& 0x3f#8 = address ∧
    decide ((address ||| flags.val) &&& 0x80#8 ≠ 0#8) = decide (flags ≠ .request) ∧
    decide ((address ||| flags.val) &&& 0x40#8 ≠ 0#8) = decide (flags = .ack) := by
  revert ha
  have h : ∀ a : Byte, a.toNat < 64 → ∀ f ∈ [Flags.request, .ack, .nack], (a ||| f.val) &&& 0x3f#8 = a ∧
    decide ((a ||| f.val) &&& 0x80#8 ≠ 0#8) = decide (f ≠ .request) ∧
    decide ((a ||| f.val) &&& 0x40#8 ≠ 0#8) = decide (f = .ack) := by decide +kernel
  intro ha
  exact h address ha flags (by cases flags <;> simp)

/-- C36: round trip. -/
theorem C36_round_trip (r : Rx) (hs : r.state = .sync) (hb : r.buffer.length = 35) (address : Byte) (ha : address.toNat < 64)
    (flags : Flags) (command : Byte) (payload : List Byte) (hp : payload.length ≤ 32) :
    ∃ r', update r (sendMessage address flags command payload) = some r' ∧ r'.state = .sync ∧ r'.buffer.length = 35 ∧
      isMessageAvailable r' = true ∧ getAddress r' = address ∧ getCommand r' = command ∧
      isResponse r' = decide (flags ≠ .request) ∧ isAcknowledge r' = decide (flags = .ack) ∧
      getPayloadLength r' = payload.length ∧ getPayload r' = payload := by
  obtain ⟨r', h⟩ := C36_receives_every_frame r hs hb _ _ _ _ (C36_sends_frame address flags command payload hp)
  obtain ⟨e1, e2, e3⟩ := header_bits address flags ha
  rw [e1, e2, e3] at h
  exact ⟨r', h⟩

example : ∃ r', update Rx.init (sendMessage 0x12#8 .ack 0x57#8 [0x54#8, 0x00#8, 0xff#8]) = some r' ∧
    getPayload r' = [0x54#8, 0x00#8, 0xff#8] ∧ getAddress r' = 0x12#8 := by decide +kernel

/-! ### C37 and C38: every byte stream -/

/-- calls of a user: bytes arriving in `update()` and `dropMessage()` -/
inductive Op
  | byte (b : Byte)
  | drop

def apply (r : Rx) : Op → Option Rx
  | .byte b => step r b
  | .drop => some (dropMessage r)

def bytesOf (ops : List Op) : List Byte := ops.filterMap fun | .byte b => some b | .drop => none

/-- the receiver knows the end of the wire history `h` -/
def Inv (h : List Byte) (r : Rx) : Prop :=
  r.buffer.length = 35 ∧
  match r.state with
  | .sync => True
  | .length => ∃ pre, h = pre ++ [syncByte]
  | .data => ∃ pre n data rest, h = pre ++ syncByte :: BitVec.ofNat 8 n :: data ∧ n ≤ 32 ∧ r.length = n + 3 ∧
      r.position = data.length ∧ data.length < n + 3 ∧ r.buffer = data ++ rest ∧
      r.crc = (BitVec.ofNat 8 n :: data).foldl crcUpdate 0#8

/-- one byte keeps the invariant, and a new message is exactly a frame at the end of the history -/
theorem step_inv (h : List Byte) (r : Rx) (hi : Inv h r) (b : Byte) : ∃ r', step r b = some r' ∧ Inv (h ++ [b]) r' ∧
    (r'.received = r.received ∨ ∃ pre header command payload f rest, h ++ [b] = pre ++ f ∧
      Spec.Sab.IsFrame f header command payload ∧ r'.received = payload.length + 3 ∧ r'.state = .sync ∧
      ∃ c, r'.buffer = header :: command :: payload ++ [c] ++ rest) := by
  obtain ⟨st, buf, crc, pos, len, rec⟩ := r
  obtain ⟨hb, hi⟩ := hi
  simp only at hb hi
  cases st with
  | sync =>
    refine ⟨_, rfl, ?_, ?_⟩
    · by_cases e : b = syncByte
      · simp only [e, if_true]; exact ⟨hb, h, rfl⟩
      · simp only [if_neg e]; exact ⟨hb, trivial⟩
    · left; by_cases e : b = syncByte <;> simp [e]
  | length =>
    obtain ⟨pre, rfl⟩ := hi
    refine ⟨_, rfl, ?_, ?_⟩
    · by_cases e : b.toNat > maxPayloadLength
      · simp only [if_pos e]; exact ⟨hb, trivial⟩
      · simp only [if_neg e]
        unfold maxPayloadLength at e
        refine ⟨hb, pre, b.toNat, [], buf, by simp, by omega, ?_, rfl, by simp, rfl, ?_⟩
        · simp only; omega
        · simp [crcInitialValue]
    · left; by_cases e : b.toNat > maxPayloadLength <;> simp [e]
  | data =>
    obtain ⟨pre, n, data, rest, rfl, hn, rfl, rfl, hlt, rfl, rfl⟩ := hi
    obtain ⟨x, rest, rfl⟩ : ∃ x r, rest = x :: r := by
      cases rest with
      | nil => simp at hb; omega
      | cons x r => exact ⟨x, r, rfl⟩
    refine ⟨_, step_data .data data rest x _ _ _ b rfl hb, ?_, ?_⟩
    · by_cases e : data.length + 1 ≥ n + 3
      · simp only [finish, if_pos e]
        exact ⟨by simp at *; omega, trivial⟩
      · simp only [finish, if_neg e]
        refine ⟨by simp at *; omega, pre, n, data ++ [b], rest, by simp, hn, rfl, by simp, by simp; omega, by simp, ?_⟩
        simp [List.foldl_append]
    · by_cases e : data.length + 1 ≥ n + 3
      · simp only [finish, if_pos e]
        by_cases hc : crcUpdate (List.foldl crcUpdate 0#8 (BitVec.ofNat 8 n :: data)) b = 0#8
        · right
          obtain ⟨header, command, payload, rfl⟩ : ∃ a c p, data = a :: c :: p := by
            match data, hlt, e with
            | [], _, e => simp at e
            | [_], _, e => simp at e
            | a :: c :: p, _, _ => exact ⟨a, c, p, rfl⟩
          simp only [List.length_cons] at e hlt
          have hpl : payload.length = n := by omega
          rw [crcUpdate_eq_zero] at hc
          refine ⟨pre, header, command, payload, syncByte :: BitVec.ofNat 8 n :: header :: command :: payload ++ [b], rest,
            by simp, ⟨by omega, b, ?_, by rw [hpl]; rfl⟩, ?_, trivial, b, by simp⟩
          · rw [crc_isCrc, hpl]; exact hc
          · rw [if_pos ((crcUpdate_eq_zero _ _).2 hc), hpl]
        · left; simp only [if_neg hc]
      · left; simp only [finish, if_neg e]

theorem apply_inv (h : List Byte) (r : Rx) (hi : Inv h r) (o : Op) : ∃ r', apply r o = some r' ∧ Inv (h ++ bytesOf [o]) r' := by
  cases o with
  | byte b => obtain ⟨r', h1, h2, _⟩ := step_inv h r hi b; exact ⟨r', h1, h2⟩
  | drop => refine ⟨_, rfl, ?_⟩; simpa [bytesOf, Inv, dropMessage] using hi

theorem run_inv (ops : List Op) : ∀ (h : List Byte) (r : Rx), Inv h r → ∃ r', ops.foldlM apply r = some r' ∧
    Inv (h ++ bytesOf ops) r' := by
  induction ops with
  | nil => intro h r hi; exact ⟨r, rfl, by simpa [bytesOf] using hi⟩
  | cons o ops ih =>
    intro h r hi
    obtain ⟨r1, h1, h2⟩ := apply_inv h r hi o
    obtain ⟨r2, h3, h4⟩ := ih _ r1 h2
    refine ⟨r2, ?_, ?_⟩
    · rw [List.foldlM_cons, h1]; exact h3
    · have : bytesOf (o :: ops) = bytesOf [o] ++ bytesOf ops := by cases o <;> simp [bytesOf]
      rw [this, ← List.append_assoc]; exact h4

theorem init_inv : Inv [] Rx.init := ⟨by simp [Rx.init, maxPayloadLength], trivial⟩

/-- C37: no history of received bytes and dropped messages makes the receiver write outside its buffer. -/
theorem C37_memory_safe (ops : List Op) : ∃ r, ops.foldlM apply Rx.init = some r ∧ r.buffer.length = 35 := by
  obtain ⟨r, h1, h2⟩ := run_inv ops [] Rx.init init_inv
  exact ⟨r, h1, h2.1⟩

/-- remaining bytes until the receiver waits for a frame again -/
def remaining (r : Rx) : Nat :=
  match r.state with
  | .sync => 0
  | .length => 36
  | .data => r.length - r.position

theorem step_remaining (h : List Byte) (r r' : Rx) (hi : Inv h r) (b : Byte) (hb : b ≠ syncByte) (hs : step r b = some r') :
    remaining r' ≤ remaining r - 1 := by
  obtain ⟨st, buf, crc, pos, len, rec⟩ := r
  obtain ⟨hl, hi⟩ := hi
  simp only at hl hi
  cases st with
  | sync => simp only [step, if_neg hb, Option.some.injEq] at hs; subst hs; simp [remaining]
  | length =>
    simp only [step, Option.some.injEq] at hs
    subst hs
    by_cases e : b.toNat > maxPayloadLength
    · simp [e, remaining]
    · simp only [if_neg e, remaining]; unfold maxPayloadLength at e; omega
  | data =>
    obtain ⟨pre, n, data, rest, rfl, hn, rfl, rfl, hlt, rfl, rfl⟩ := hi
    obtain ⟨x, rest, rfl⟩ : ∃ x r, rest = x :: r := by
      cases rest with
      | nil => simp at hl; omega
      | cons x r => exact ⟨x, r, rfl⟩
    rw [step_data .data data rest x _ _ _ b rfl hl] at hs
    obtain rfl := Option.some.inj hs
    by_cases e : data.length + 1 ≥ n + 3
    · simp only [finish, if_pos e, remaining]; omega
    · simp only [finish, if_neg e, remaining]; omega

theorem quiet_sync (bs : List Byte) : ∀ (h : List Byte) (r : Rx), Inv h r → (∀ b ∈ bs, b ≠ syncByte) → remaining r ≤ bs.length →
    ∃ r', update r bs = some r' ∧ r'.state = .sync ∧ r'.buffer.length = 35 := by
  induction bs with
  | nil =>
    intro h r hi _ hr
    refine ⟨r, rfl, ?_, hi.1⟩
    obtain ⟨st, buf, crc, pos, len, rec⟩ := r
    cases st with
    | sync => rfl
    | length => simp [remaining] at hr
    | data => obtain ⟨_, pre, n, data, rest, _, hn, h3, h4, hlt, _⟩ := hi; simp [remaining] at hr h3 h4; omega
  | cons b bs ih =>
    intro h r hi hq hr
    obtain ⟨r1, h1, h2, _⟩ := step_inv h r hi b
    have := step_remaining h r r1 hi b (hq b (by simp)) h1
    obtain ⟨r2, h3, h4⟩ := ih _ r1 h2 (fun c hc => hq c (by simp [hc])) (by simp at hr; omega)
    refine ⟨r2, ?_, h4⟩
    rw [update, List.foldlM_cons, h1]; exact h3

/-- C37: after any history, any 36 or more bytes without a sync byte bring the receiver back to waiting, and a frame sent
then is received. -/
theorem C37_resynchronises (ops : List Op) (gap : List Byte) (hg : 36 ≤ gap.length) (hq : ∀ b ∈ gap, b ≠ syncByte)
    (f : List Byte) (header command : Byte) (payload : List Byte) (hf : Spec.Sab.IsFrame f header command payload) :
    ∃ r r', ops.foldlM apply Rx.init = some r ∧ update r (gap ++ f) = some r' ∧ isMessageAvailable r' = true ∧
      getAddress r' = header &&& 0x3f#8 ∧ getCommand r' = command ∧ getPayload r' = payload := by
  obtain ⟨r, h1, h2⟩ := run_inv ops [] Rx.init init_inv
  have hr : remaining r ≤ gap.length := by
    obtain ⟨st, buf, crc, pos, len, rec⟩ := r
    cases st with
    | sync => simp [remaining]
    | length => simpa [remaining] using hg
    | data =>
      obtain ⟨_, pre, n, data, rest, _, hn, h3, h4, hlt, _⟩ := h2
      simp [remaining] at *; omega
  obtain ⟨r1, h3, h4, h5⟩ := quiet_sync gap _ r h2 hq hr
  obtain ⟨r2, h6, h7⟩ := C36_receives_every_frame r1 h4 h5 f header command payload hf
  refine ⟨r, r2, h1, ?_, h7.2.2.1, h7.2.2.2.1, h7.2.2.2.2.1, h7.2.2.2.2.2.2.2.2⟩
  rw [update_append, h3]; exact h6

/-- the bound 36 is tight: 35 bytes can leave the receiver inside a frame -/
theorem C37_bound_tight : ∃ (ops : List Op) (gap : List Byte) (r r' : Rx), gap.length = 35 ∧ (∀ b ∈ gap, b ≠ syncByte) ∧
    ops.foldlM apply Rx.init = some r ∧ update r gap = some r' ∧ r'.state ≠ .sync := by
  refine ⟨[.byte 0x54#8], 0x20#8 :: List.replicate 34 0#8, _, _, rfl, by decide, rfl, rfl, by decide⟩

/-- C38 (what holds): when a message becomes available, the bytes received so far end with a valid frame and address,
command and payload are those of that frame. Missing: it does not stay so, see `C38_overwritten_counterexample`. -/
theorem C38_new_message_is_frame_partial (ops : List Op) (b : Byte) (r : Rx) (hr : ops.foldlM apply Rx.init = some r)
    (h0 : isMessageAvailable r = false) (r' : Rx) (hr' : step r b = some r') (h1 : isMessageAvailable r' = true) :
    ∃ pre f header command payload, bytesOf ops ++ [b] = pre ++ f ∧ Spec.Sab.IsFrame f header command payload ∧
      getAddress r' = header &&& 0x3f#8 ∧ getCommand r' = command ∧
      isResponse r' = decide (header &&& 0x80#8 ≠ 0#8) ∧ isAcknowledge r' = decide (header &&& 0x40#8 ≠ 0#8) ∧
      getPayload r' = payload := by
  obtain ⟨q, g1, g2⟩ := run_inv ops [] Rx.init init_inv
  rw [hr] at g1; obtain rfl := Option.some.inj g1
  obtain ⟨q', k1, k2, k3⟩ := step_inv _ r g2 b
  rw [hr'] at k1; obtain rfl := Option.some.inj k1
  simp only [isMessageAvailable, ne_eq, decide_not, Bool.not_eq_false', decide_eq_true_eq, Bool.not_eq_true', decide_eq_false_iff_not] at h0 h1
  rcases k3 with k3 | ⟨pre, header, command, payload, f, rest, e, hf, hrec, hst, c, hbuf⟩
  · omega
  · refine ⟨pre, f, header, command, payload, by simpa using e, hf, ?_⟩
    obtain ⟨st, buf, crc, pos, len, rec⟩ := r'
    simp only at hrec hst hbuf
    subst hrec hst hbuf
    have := getters (header :: command :: payload ++ [c]) payload rest header command c hf.1 crc pos len rfl
    exact ⟨this.2.1, this.2.2.1, this.2.2.2.1, this.2.2.2.2.1, this.2.2.2.2.2.2⟩

/-- C38 (what holds): a message stays intact while the bytes that follow contain no sync byte. -/
theorem C38_intact_without_sync_partial (r : Rx) (hs : r.state = .sync) (bs : List Byte) (hq : ∀ b ∈ bs, b ≠ syncByte) :
    update r bs = some r := by
  induction bs with
  | nil => rfl
  | cons b bs ih =>
    have : step r b = some r := by simp [step, hs, hq b (by simp)]
    rw [update, List.foldlM_cons, this]; exact ih (fun c hc => hq c (by simp [hc]))

/-- C38 is false: one call of `update()` that finds a valid request to address 1 and the first bytes of the next frame
leaves a message available whose address, command and payload belong to no frame: address 2, command 7 and payload 9. -/
theorem C38_overwritten_counterexample :
    ∃ r, update Rx.init (sendMessage 0x01#8 .request 0x07#8 [0x09#8] ++ (sendMessage 0x02#8 .request 0x08#8 [0x0a#8, 0x0b#8]).take 3) = some r ∧
      isMessageAvailable r = true ∧ getAddress r = 0x02#8 ∧ getCommand r = 0x07#8 ∧ getPayload r = [0x09#8] := by
  decide +kernel

/-- C38 is false: even a frame with a wrong checksum replaces a pending message. -/
theorem C38_bad_frame_replaces_counterexample :
    ∃ r, update Rx.init (sendMessage 0x01#8 .request 0x07#8 [0x09#8] ++ [0x54#8, 0x01#8, 0x3f#8, 0xaa#8, 0xbb#8, 0x00#8]) = some r ∧
      isMessageAvailable r = true ∧ getAddress r = 0x3f#8 ∧ getCommand r = 0xaa#8 ∧ getPayload r = [0xbb#8] := by
  decide +kernel

/-! ### C39 -/

/-- C39: a frame with one altered byte after the length is not reported: a waiting receiver is waiting afterwards and has
no message unless it already had one. -/
theorem C39_single_byte_error (r : Rx) (hs : r.state = .sync) (hb : r.buffer.length = 35) (header command : Byte)
    (payload pre post : List Byte) (x y : Byte) (hxy : x ≠ y) (n : Byte)
    (hf : Spec.Sab.IsFrame (syncByte :: n :: pre ++ x :: post) header command payload) :
    ∃ r', update r (syncByte :: n :: pre ++ y :: post) = some r' ∧ r'.state = .sync ∧
      isMessageAvailable r' = isMessageAvailable r := by
  obtain ⟨hp, c, hc, e⟩ := hf
  have hn : n = BitVec.ofNat 8 payload.length := by
    have := congrArg (fun l => l[1]?) e; simpa using this
  subst hn
  have e2 : pre ++ x :: post = header :: command :: payload ++ [c] := by
    have := congrArg (fun l => l.drop 2) e; simpa using this
  have hlen : (pre ++ y :: post).length = payload.length + 3 := by
    have := congrArg List.length e2; simpa using this
  obtain ⟨rest, h1, h2⟩ := update_frame r hs hb payload.length hp (pre ++ y :: post) hlen
  have hz : (BitVec.ofNat 8 payload.length :: (pre ++ x :: post)).foldl crcUpdate 0#8 = 0#8 := by
    rw [e2]
    have : (BitVec.ofNat 8 payload.length :: (header :: command :: payload ++ [c])) =
      (BitVec.ofNat 8 payload.length :: header :: command :: payload) ++ [c] := rfl
    rw [this, List.foldl_append, (crc_isCrc _ _).1 hc]
    exact (crcUpdate_eq_zero c c).2 rfl
  have hnz : (BitVec.ofNat 8 payload.length :: (pre ++ y :: post)).foldl crcUpdate 0#8 ≠ 0#8 := by
    intro h0
    refine absurd (h0.trans hz.symm) ?_
    rw [crc_fold, crc_fold]
    have sp : ∀ z : Byte, bits (BitVec.ofNat 8 payload.length :: (pre ++ z :: post)) =
        bits (BitVec.ofNat 8 payload.length :: pre) ++ byteBits z ++ bits post := by intro z; simp [bits]
    rw [sp, sp]
    exact burst (p := 0x8C#8) (by decide) (by decide) _ _ (byteBits y) (byteBits x) _ (by simp [byteBits]) (by simp [byteBits])
      (fun h => hxy (byteBits_inj h).symm)
  refine ⟨_, h2, rfl, ?_⟩
  simp only [isMessageAvailable, if_neg hnz]

example : Spec.Sab.IsFrame (sendMessage 0x12#8 .ack 0x57#8 [0xab#8]) 0xd2#8 0x57#8 [0xab#8] :=
  C36_sends_frame 0x12#8 .ack 0x57#8 [0xab#8] (by decide)
example : ∃ c, sendMessage 0x12#8 .ack 0x57#8 [0xab#8] = [0x54#8, 0x01#8, 0xd2#8] ++ 0x57#8 :: [0xab#8, c] := ⟨_, rfl⟩

/-! ### C50: the slave -/

/-- C50: which responses a slave sends for a request, stated over the first action with that command. -/
def expectedResponses (actions : List Action) (command : Byte) (payload : List Byte) : List Resp :=
  match actions.find? (fun a => a.command = command) with
  | none => [.error 0x01#8]
  | some a =>
    if payload.length = a.payloadLength then
      (match a.call payload with | [] => [.error 0x03#8] | rs => rs)
    else [.error 0x02#8]

theorem search_find (r : Rx) (actions : List Action) :
    search r actions = match actions.find? (fun a => a.command = getCommand r) with
      | none => [] | some a => perform a r := by
  induction actions with
  | nil => rfl
  | cons a as ih =>
    by_cases h : getCommand r = a.command
    · simp [search, h]
    · rw [search, if_neg h, ih, List.find?_cons_of_neg]; simpa using Ne.symm h

theorem respond_eq (r : Rx) (actions : List Action) (hl : getPayloadLength r = (getPayload r).length) :
    respond r actions = expectedResponses actions (getCommand r) (getPayload r) := by
  unfold respond expectedResponses
  rw [search_find]
  cases actions.find? (fun a => a.command = getCommand r) with
  | none => rfl
  | some a =>
    simp only [perform, hl]
    by_cases h : (getPayload r).length = a.payloadLength
    · simp only [h, if_true]
      cases a.call (getPayload r) <;> simp [ERROR_NO_RESPONSE]
    · simp [h, ERROR_WRONG_PAYLOAD_LENGTH]

/-- C50: a waiting slave that receives a frame handles it exactly as specified: a request to its own address gets the
responses of the first action registered for the command (or exactly one error), anything else gets none; the message is
consumed and the slave waits for the next frame. -/
theorem C50_slave_answers (own : Byte) (actions : List Action) (r : Rx) (hs : r.state = .sync) (hb : r.buffer.length = 35)
    (f : List Byte) (header command : Byte) (payload : List Byte) (hf : Spec.Sab.IsFrame f header command payload) :
    ∃ r', slaveUpdate own actions r f = some (r',
        if header &&& 0x3f#8 = own ∧ header &&& 0x80#8 = 0#8 then expectedResponses actions command payload else []) ∧
      r'.state = .sync ∧ r'.buffer.length = 35 ∧ isMessageAvailable r' = false := by
  obtain ⟨q, h1, h2, h3, h4, h5, h6, h7, h8, h9, h10⟩ := C36_receives_every_frame r hs hb f header command payload hf
  refine ⟨dropMessage q, ?_, h2, h3, rfl⟩
  simp only [slaveUpdate, h1, Option.map_some, h4, if_true, h5, h7]
  rw [respond_eq q actions (by rw [h9, h10]), h6, h10]
  simp

/-- C50: on the wire, the responses are frames to the same command: an acknowledge (0xc0) with the payload, or a negative
response (0x80) with the error code. -/
theorem C50_response_frames (own command : Byte) (resp : Resp) (hlen : ∀ p, resp = .send p → p.length ≤ 32) :
    match resp with
    | .send p => Spec.Sab.IsFrame (resp.bytes own command) (own ||| 0xc0#8) command p
    | .error code => Spec.Sab.IsFrame (resp.bytes own command) (own ||| 0x80#8) command [code] := by
  cases resp with
  | send p => exact C36_sends_frame own .ack command p (hlen p rfl)
  | error code => exact C36_sends_frame own .nack command [code] (by simp)

/-- C50: at least one response is sent for every request to the slave. -/
theorem C50_always_answers (actions : List Action) (command : Byte) (payload : List Byte) :
    expectedResponses actions command payload ≠ [] := by
  unfold expectedResponses
  split
  · simp
  · split
    · split <;> simp_all
    · simp

/-- a slave with one action of one payload byte that answers with the payload -/
def echo : List Action := [⟨0x57#8, 1, fun p => [.send p]⟩]

example : slaveUpdate 0x02#8 echo Rx.init (sendMessage 0x02#8 .request 0x57#8 [0x41#8]) =
    (slaveUpdate 0x02#8 echo Rx.init (sendMessage 0x02#8 .request 0x57#8 [0x41#8])).map fun p => (p.1, [.send [0x41#8]]) := by
  obtain ⟨r', h, _⟩ := C50_slave_answers 0x02#8 echo Rx.init rfl (by decide) _ _ _ _
    (C36_sends_frame 0x02#8 .request 0x57#8 [0x41#8] (by decide))
  rw [h]; rfl

/-! ### C51: master and slave -/

/-- C51: a query whose action sends one response comes back as that response: with a payload of the expected length the
query succeeds and the response is that payload, with an error it fails with that error code. -/
theorem C51_query_round_trip (own : Byte) (hown : own.toNat < 64) (actions : List Action) (slave : Rx) (hs : slave.state = .sync)
    (hb : slave.buffer.length = 35) (m : Master) (hms : m.rx.state = .sync) (hmb : m.rx.buffer.length = 35)
    (command : Byte) (payload : List Byte) (hp : payload.length ≤ 32) (n : Nat) (resp : Resp)
    (hr : expectedResponses actions command payload = [resp])
    (hlen : ∀ p, resp = .send p → p.length ≤ 32) :
    ∃ slave' m', slaveUpdate own actions slave (query m own command payload n).2 = some (slave', [resp]) ∧
      masterUpdate (query m own command payload n).1 (resp.bytes own command) false = some m' ∧
      (match resp with
        | .send p => m'.status = (if p.length = n then .success else .errorPayload) ∧ getPayload m'.rx = p
        | .error c => m'.status = .errorResponse ∧ getPayload m'.rx = [c]) := by
  obtain ⟨s', h1, _⟩ := C50_slave_answers own actions slave hs hb _ _ _ _ (C36_sends_frame own .request command payload hp)
  have hh : (own ||| Flags.request.val) &&& 0x3f#8 = own ∧ (own ||| Flags.request.val) &&& 0x80#8 = 0#8 := by
    have := header_bits own .request hown
    exact ⟨this.1, by simpa using this.2.1⟩
  rw [if_pos hh, hr] at h1
  cases resp with
  | send p =>
    obtain ⟨q, g1, g2, g3, g4, g5, g6, g7, g8, g9, g10⟩ := C36_round_trip (dropMessage m.rx) hms hmb own hown .ack command p (hlen p rfl)
    refine ⟨s', evaluate ⟨q, .inProgress, n⟩ false, h1, by simp [masterUpdate, query, Resp.bytes, g1], ?_⟩
    simp [evaluate, g4, g7, g8, g9, g10]
  | error c =>
    obtain ⟨q, g1, g2, g3, g4, g5, g6, g7, g8, g9, g10⟩ := C36_round_trip (dropMessage m.rx) hms hmb own hown .nack command [c] (by simp)
    refine ⟨s', evaluate ⟨q, .inProgress, n⟩ false, h1, by simp [masterUpdate, query, Resp.bytes, g1], ?_⟩
    simp [evaluate, g4, g7, g8, g9, g10]

/-- the hypotheses are met by the echo slave -/
example : expectedResponses echo 0x57#8 [0x41#8] = [.send [0x41#8]] := rfl

/-- C52 is false: a late answer of another slave to an earlier query (which timed out) completes the current query
successfully, although the queried slave has not answered. -/
theorem C52_stale_answer_counterexample :
    ∃ m, masterUpdate (query ⟨Rx.init, .errorTimeout, 0⟩ 0x02#8 0x57#8 [] 1).1 (sendMessage 0x05#8 .ack 0x11#8 [0x99#8]) false = some m ∧
      m.status = .success ∧ getPayload m.rx = [0x99#8] ∧ getAddress m.rx = 0x05#8 := by decide +kernel

/-- C52 (what holds): for whatever bytes arrive, a query completes only by a message with the response flag or by timeout,
and succeeds only on an acknowledged message of the expected length. -/
theorem C52_completion_partial (m m' : Master) (hm : m.status = .inProgress) (bytes : List Byte) (expired : Bool)
    (h : masterUpdate m bytes expired = some m') :
    (m'.status = .success → isMessageAvailable m'.rx = true ∧ isResponse m'.rx = true ∧ isAcknowledge m'.rx = true ∧
      getPayloadLength m'.rx = m.expected) ∧
    (m'.status = .errorTimeout → expired = true ∧ isMessageAvailable m'.rx = false) ∧
    (m'.status = .errorResponse → isMessageAvailable m'.rx = true ∧ isResponse m'.rx = true ∧ isAcknowledge m'.rx = false) ∧
    (m'.status = .inProgress → isMessageAvailable m'.rx = false) := by
  simp only [masterUpdate, Option.map_eq_some_iff] at h
  obtain ⟨rx, _, h⟩ := h
  rw [if_neg (by simp [hm])] at h
  subst h
  unfold evaluate
  by_cases h1 : isMessageAvailable rx = true
  · by_cases h2 : isResponse rx = true
    · by_cases h3 : isAcknowledge rx = true
      · by_cases h4 : getPayloadLength rx = m.expected <;> simp [h1, h2, h3, h4]
      · simp [h1, h2, h3]
    · simp [h1, h2, hm]; simp [isMessageAvailable, dropMessage]
  · cases expired <;> simp [h1, hm]

end Props.Sab
