import Verif.Model.Rpr
import Verif.Spec.Rpr
import Verif.Props.Sab2
set_option autoImplicit false
set_option linter.unusedSimpArgs false
/- Properties C42-C44, C55 (RPR ring protocol). -/
namespace Props.Rpr
open Modm.Rpr hiding read
open Spec.Rpr
open Modm.Sab (Byte)
open Modm.Sab2 (crcUpdate crcInitialValue)
open Spec.Sab2 (IsCrc)

theorem escaped_eq (b : Byte) : writeByteEscaped b = (if b = 0x7e#8 then [0x7d#8, 0x5e#8] else if b = 0x7d#8 then [0x7d#8, 0x5d#8]
      else if b = 0x7c#8 then [0x7d#8, 0x5c#8] else [b]) := by
  unfold writeByteEscaped startDelimiterByte endDelimiterByte controlEscapeByte
  by_cases h1 : b = 0x7e#8
  · subst h1; decide
  · by_cases h2 : b = 0x7d#8
    · subst h2; decide
    · by_cases h3 : b = 0x7c#8
      · subst h3; decide
      · simp [h1, h2, h3]

theorem stuff_eq (l : List Byte) : stuff l = l.flatMap writeByteEscaped := by
  induction l with
  | nil => rfl
  | cons b l ih => rw [stuff, ih, List.flatMap_cons, escaped_eq]

theorem le_eq (v : BitVec 16) : le v = [lo v, hi v] := by
  unfold le lo hi
  congr 1
  · apply BitVec.eq_of_toNat_eq; simp
  · congr 1
    apply BitVec.eq_of_toNat_eq
    have := v.isLt
    simp only [BitVec.toNat_ofNat, BitVec.toNat_setWidth, BitVec.toNat_ushiftRight, Nat.shiftRight_eq_div_pow]

theorem hi_lo (v : BitVec 16) : hi v ++ lo v = v := by
  apply BitVec.eq_of_getLsbD_eq; intro i h
  rw [BitVec.getLsbD_append]
  unfold hi lo
  by_cases h8 : i < 8
  · simp [h8]
  · have h2 : i - 8 < 8 := by omega
    have h3 : 8 + (i - 8) = i := by omega
    simp only [h8, BitVec.getLsbD_setWidth, BitVec.getLsbD_ushiftRight]
    simp [h2, h3]

/-! ### receiving -/

def pfx (o : List Byte) : Node × List Byte × List Byte → Node × List Byte × List Byte := fun (n, out, rest) => (n, o ++ out, rest)

theorem pfx_nil (x : Option (Node × List Byte × List Byte)) : x.map (pfx []) = x := by cases x <;> rfl
theorem pfx_pfx (a b : List Byte) (x : Option (Node × List Byte × List Byte)) : (x.map (pfx b)).map (pfx a) = x.map (pfx (a ++ b)) := by
  cases x <;> simp [pfx]

/-- one content byte on the wire -/
theorem read_escaped (N : Nat) (n : Node) (hs : n.startReceived = true) (he : n.nextEscaped = false) (d : Byte) (bs : List Byte) :
    Modm.Rpr.read N n (writeByteEscaped d ++ bs) = (content N n d).bind fun x => (Modm.Rpr.read N x.1 bs).map (pfx x.2) := by
  have hn : ({ n with nextEscaped := false } : Node) = n := by cases n; simp only at he; subst he; rfl
  unfold writeByteEscaped
  by_cases h : d = startDelimiterByte ∨ d = endDelimiterByte ∨ d = controlEscapeByte
  · rw [if_pos h]
    have e : ∀ x : Byte, x = 0x5e#8 ∨ x = 0x5c#8 ∨ x = 0x5d#8 → Modm.Rpr.read N n (controlEscapeByte :: x :: bs) =
        (content N n (x ^^^ 0x20#8)).bind fun x => (Modm.Rpr.read N x.1 bs).map (pfx x.2) := by
      intro x hx
      rw [Modm.Rpr.read, if_neg (by decide), if_neg (by decide), if_pos rfl, Modm.Rpr.read]
      have h1 : ¬ x = startDelimiterByte := by rcases hx with rfl | rfl | rfl <;> decide
      have h2 : ¬ x = endDelimiterByte := by rcases hx with rfl | rfl | rfl <;> decide
      have h3 : ¬ x = controlEscapeByte := by rcases hx with rfl | rfl | rfl <;> decide
      rw [if_neg h1, if_neg h2, if_neg h3]
      simp only [if_pos hs, if_true]
      rw [hn]
      rfl
    rcases h with rfl | rfl | rfl
    · exact e 0x5e#8 (by simp)
    · exact e 0x5c#8 (by simp)
    · exact e 0x5d#8 (by simp)
  · rw [if_neg h]
    push Not at h
    rw [List.cons_append, List.nil_append, Modm.Rpr.read, if_neg h.1, if_neg h.2.1, if_neg h.2.2]
    simp only [if_pos hs]
    rw [hn, he]
    rfl

/-- payload bytes of a frame for this node -/
theorem read_payload (N : Nat) (ds : List Byte) : ∀ (n : Node) (pre rest bs : List Byte), n.startReceived = true → n.nextEscaped = false →
    n.destRecognised = true → n.rxBuffer = pre ++ rest → n.rxBuffer.length = N + 8 → n.length = 4 + pre.length → n.rlen = pre.length →
    4 + pre.length + ds.length ≤ N + 8 → 4 + pre.length + ds.length ≤ 255 →
    ∃ rest', (pre ++ ds ++ rest').length = N + 8 ∧ Modm.Rpr.read N n (stuff ds ++ bs) =
      (Modm.Rpr.read N { n with length := 4 + pre.length + ds.length, rxBuffer := pre ++ ds ++ rest', rlen := pre.length + ds.length, crc := ds.foldl crcUpdate n.crc } bs).map (pfx (if forwards n then stuff ds else [])) := by
  induction ds with
  | nil =>
    intro n pre rest bs hs he hd hb hbl hl hr h1 h2
    refine ⟨rest, by rw [← hbl, hb]; simp, ?_⟩
    have : ({ n with length := 4 + pre.length + 0, rxBuffer := pre ++ [] ++ rest, rlen := pre.length + 0, crc := n.crc } : Node) = n := by
      cases n; simp only at hb hl hr; subst hb hl hr; simp
    simp only [stuff, List.nil_append, List.length_nil, List.foldl_nil, this, ite_self]
    exact (pfx_nil _).symm
  | cons d ds ih =>
    intro n pre rest bs hs he hd hb hbl hl hr h1 h2
    simp only [List.length_cons] at h1 h2
    obtain ⟨x, rest, rfl⟩ : ∃ x t, rest = x :: t := by
      cases rest with
      | nil => rw [hb] at hbl; simp at hbl; omega
      | cons x t => exact ⟨x, t, rfl⟩
    have hset : n.rxBuffer.set pre.length d = (pre ++ [d]) ++ rest := by
      rw [hb, List.set_append_right _ _ (Nat.le_refl _)]; simp
    have hcont : content N n d = some ({ n with length := 4 + (pre.length + 1), rxBuffer := (pre ++ [d]) ++ rest, rlen := pre.length + 1, crc := crcUpdate n.crc d }, if forwards n then writeByteEscaped d else []) := by
      obtain ⟨k, hk⟩ : ∃ k, pre.length = k := ⟨_, rfl⟩
      have hl4 : n.length = k + 4 := by omega
      unfold content
      simp only [hl4]
      rw [Nat.mod_eq_of_lt (by omega)]
      simp only [payloadByte, hd, if_true]
      rw [if_pos (by omega), if_pos (by omega)]
      have : k + 4 + 1 - 5 = pre.length := by omega
      rw [this, hset]
      simp only [Option.map_some, hr, hk]
      congr 2
      · congr 1; omega
    obtain ⟨rest', g1, g2⟩ := ih { n with length := 4 + (pre.length + 1), rxBuffer := (pre ++ [d]) ++ rest, rlen := pre.length + 1, crc := crcUpdate n.crc d } (pre ++ [d]) rest bs hs he hd rfl (by rw [← hset]; simpa using hbl) (by simp) (by simp)
        (by simp; omega) (by simp; omega)
    refine ⟨rest', by simpa using g1, ?_⟩
    rw [stuff_eq, List.flatMap_cons, List.append_assoc, ← stuff_eq, read_escaped N n hs he, hcont, Option.bind_some, g2, pfx_pfx]
    have hf : forwards { n with length := 4 + (pre.length + 1), rxBuffer := (pre ++ [d]) ++ rest, rlen := pre.length + 1, crc := crcUpdate n.crc d } = forwards n := rfl
    rw [hf]
    congr 2
    · cases forwards n <;> simp
    · have e1 : 4 + (pre ++ [d]).length + ds.length = 4 + pre.length + (d :: ds).length := by
        rw [List.length_append, List.length_cons, List.length_cons, List.length_nil]; omega
      have e2 : (pre ++ [d]).length + ds.length = pre.length + (d :: ds).length := by
        rw [List.length_append, List.length_cons, List.length_cons, List.length_nil]; omega
      have e3 : pre ++ [d] ++ ds ++ rest' = pre ++ d :: ds ++ rest' := by simp
      rw [e1, e2, e3]
      rfl

/-- payload bytes of a frame for another node -/
theorem read_foreign (N : Nat) (ds : List Byte) : ∀ (n : Node) (bs : List Byte), n.startReceived = true → n.nextEscaped = false →
    n.destRecognised = false → 4 ≤ n.length → n.length + ds.length ≤ 255 →
    Modm.Rpr.read N n (stuff ds ++ bs) =
      (Modm.Rpr.read N { n with length := n.length + ds.length } bs).map (pfx (if forwards n then stuff ds else [])) := by
  induction ds with
  | nil =>
    intro n bs hs he hd h4 h1
    simp only [stuff, List.nil_append, List.length_nil, Nat.add_zero, ite_self]
    exact (pfx_nil _).symm
  | cons d ds ih =>
    intro n bs hs he hd h4 h1
    simp only [List.length_cons] at h1
    have hcont : content N n d = some ({ n with length := n.length + 1 }, if forwards n then writeByteEscaped d else []) := by
      obtain ⟨k, hk⟩ : ∃ k, n.length = k + 4 := ⟨n.length - 4, by omega⟩
      unfold content
      simp only [hk]
      rw [Nat.mod_eq_of_lt (by omega)]
      simp only [payloadByte, hd, Bool.false_eq_true, if_false, Option.map_some]
      rfl
    rw [stuff_eq, List.flatMap_cons, List.append_assoc, ← stuff_eq, read_escaped N n hs he, hcont, Option.bind_some,
      ih { n with length := n.length + 1 } bs hs he hd (by simp only; omega) (by simp only; omega), pfx_pfx]
    have hf : forwards { n with length := n.length + 1 } = forwards n := rfl
    rw [hf]
    congr 2
    · cases forwards n <;> simp
    · have e1 : n.length + 1 + ds.length = n.length + (d :: ds).length := by rw [List.length_cons]; omega
      simp only [e1]

/-- node after the four header bytes of a frame -/
def afterHeader (n : Node) (d s : BitVec 16) : Node :=
  { n with length := 4, addressBuffer := lo s, rdest := d, rlen := 0, rtype := classify n d, overflow := false, destRecognised := decide (classify n d ≠ .any), rsource := s &&& 0x7fff#16, sourceRecognised := decide (n.address = s &&& 0x7fff#16), crc := if classify n d ≠ .any then [lo d, hi d, lo s, hi s].foldl crcUpdate n.crc else n.crc }

theorem read_header (N : Nat) (n : Node) (hs : n.startReceived = true) (he : n.nextEscaped = false) (hl : n.length = 0)
    (d s : BitVec 16) (bs : List Byte) :
    Modm.Rpr.read N n (stuff [lo d, hi d, lo s, hi s] ++ bs) =
      (Modm.Rpr.read N (afterHeader n d s) bs).map
        (pfx (if forwards (afterHeader n d s) then 0x7e#8 :: stuff [lo d, hi d, lo s, hi s] else [])) := by
  simp only [stuff_eq, List.flatMap_cons, List.flatMap_nil, List.append_nil, List.append_assoc]
  rw [read_escaped N n hs he]
  simp only [content, hl, Option.bind_some]
  rw [read_escaped] <;> try assumption
  simp only [content, Option.bind_some]
  rw [read_escaped] <;> try assumption
  simp only [content, destination, Option.bind_some]
  rw [read_escaped] <;> try assumption
  simp only [content, Option.bind_some, pfx_pfx, List.nil_append]
  have hd : hi d ++ lo d = d := hi_lo d
  have hsrc : hi s ++ lo s = s := hi_lo s
  have key : source { n with length := 4, addressBuffer := lo s, rdest := hi d ++ lo d, rlen := 0, rtype := classify { n with length := 2, addressBuffer := lo d } (hi d ++ lo d), overflow := false, sourceRecognised := false, destRecognised := decide (classify { n with length := 2, addressBuffer := lo d } (hi d ++ lo d) ≠ .any), crc := if classify { n with length := 2, addressBuffer := lo d } (hi d ++ lo d) ≠ .any then crcUpdate (crcUpdate n.crc (lo d)) (hi d) else n.crc } (hi s) = afterHeader n d s := by
    unfold source afterHeader
    rw [hd, hsrc]
    have hc : classify { n with length := 2, addressBuffer := lo d } d = classify n d := rfl
    simp only [hc]
    congr 1
    · by_cases h : classify n d = .any <;> simp [h]
  simp only [hd] at key ⊢
  have hc : classify { n with length := 2, addressBuffer := lo d } d = classify n d := rfl
  rw [hc] at key
  simp only [hc] at ⊢
  rw [key]
  simp [startDelimiterByte]

/-! ### whole frames -/

theorem stuff_append (a b : List Byte) : stuff (a ++ b) = stuff a ++ stuff b := by
  rw [stuff_eq, stuff_eq, stuff_eq, List.flatMap_append]

theorem body_eq (d s : BitVec 16) (cmd : Byte) (p : List Byte) : body d s cmd p = [lo d, hi d, lo s, hi s] ++ cmd :: p := by
  unfold body; rw [le_eq, le_eq]; rfl

theorem frame_eq (d s : BitVec 16) (cmd : Byte) (p : List Byte) (c : BitVec 16) :
    frame d s cmd p c = 0x7e#8 :: (stuff [lo d, hi d, lo s, hi s] ++ (stuff (cmd :: p ++ le c) ++ [0x7c#8])) := by
  unfold frame
  rw [body_eq, List.append_assoc, stuff_append, List.cons_append, List.append_assoc]

theorem read_end (N : Nat) (n : Node) (bs : List Byte) :
    Modm.Rpr.read N n (0x7c#8 :: bs) = (Modm.Rpr.read N (endDelimiter n).1 bs).map (pfx (endDelimiter n).2) := by
  rw [Modm.Rpr.read, if_neg (by decide), if_pos (by decide)]
  rfl

/-- what a node keeps of a message in its receive queue -/
def enqueue (q : List Message) (m : Message) : List Message := if q.length < 10 then q ++ [m] else q

theorem crc_zero (d s : BitVec 16) (cmd : Byte) (p : List Byte) (c : BitVec 16) :
    (cmd :: p ++ le c).foldl crcUpdate ([lo d, hi d, lo s, hi s].foldl crcUpdate crcInitialValue) = 0#16 ↔ IsCrc (body d s cmd p) c := by
  rw [← List.foldl_append, ← List.append_assoc, ← body_eq, List.foldl_append, le_eq, Props.Sab2.crc_closes, Props.Sab2.crc_isCrc]
  show _ ∧ _ ↔ List.foldl crcUpdate crcInitialValue _ = c
  constructor
  · rintro ⟨h1, h2⟩
    rw [← hi_lo c, h1, h2]
    exact (hi_lo _).symm
  · rintro h; rw [h]; exact ⟨rfl, rfl⟩

/-- a node that is addressed reads a frame -/
theorem read_frame_addressed (N : Nat) (n : Node) (hb : n.rxBuffer.length = N + 8) (d s : BitVec 16) (cmd : Byte) (p : List Byte)
    (c : BitVec 16) (hc : classify n d ≠ .any) (h1 : p.length + 7 ≤ N + 8) (h2 : p.length + 7 ≤ 255) (bs : List Byte) :
    ∃ n', Modm.Rpr.read N n (frame d s cmd p c ++ bs) = (Modm.Rpr.read N n' bs).map
        (pfx (if n.address ≠ s &&& 0x7fff#16 ∧ classify n d ≠ .unicast then frame d s cmd p c else [])) ∧
      n'.address = n.address ∧ n'.groupAddress = n.groupAddress ∧ n'.messagesToSend = n.messagesToSend ∧
      n'.startReceived = false ∧ n'.endReceived = true ∧ n'.rxBuffer.length = N + 8 ∧
      (IsCrc (body d s cmd p) c → n'.receivedMessages =
        enqueue n.receivedMessages ⟨classify n d, d, s &&& 0x7fff#16, cmd, p ++ le c⟩) ∧
      (¬ IsCrc (body d s cmd p) c → n'.receivedMessages = n.receivedMessages) := by
  have hstart : Modm.Rpr.read N n (frame d s cmd p c ++ bs) = Modm.Rpr.read N (startDelimiter n)
      (stuff [lo d, hi d, lo s, hi s] ++ (stuff (cmd :: p ++ le c) ++ (0x7c#8 :: bs))) := by
    rw [frame_eq, List.cons_append, Modm.Rpr.read, if_pos (by decide)]
    simp
  obtain ⟨m, hm⟩ : ∃ m, m = afterHeader (startDelimiter n) d s := ⟨_, rfl⟩
  have hms : m.startReceived = true := by rw [hm]; rfl
  have hcl : classify (startDelimiter n) d = classify n d := rfl
  have hmd : m.destRecognised = true := by
    have : m.destRecognised = decide (classify n d ≠ .any) := by rw [hm]; rfl
    rw [this]; simpa using hc
  have hml : m.length = 4 := by rw [hm]; rfl
  have hlen : (cmd :: p ++ le c).length = p.length + 3 := by rw [le_eq]; simp
  obtain ⟨rest', g1, g2⟩ := read_payload N (cmd :: p ++ le c) m [] m.rxBuffer (0x7c#8 :: bs) hms (by rw [hm]; rfl) hmd (by simp)
    (by rw [hm]; exact hb) (by rw [hml]; rfl) (by rw [hm]; rfl) (by rw [hlen]; simp; omega) (by rw [hlen]; simp; omega)
  obtain ⟨m2, hm2⟩ : ∃ m2 : Node, m2 = { m with length := 4 + ([] : List Byte).length + (cmd :: p ++ le c).length, rxBuffer := [] ++ (cmd :: p ++ le c) ++ rest', rlen := ([] : List Byte).length + (cmd :: p ++ le c).length, crc := (cmd :: p ++ le c).foldl crcUpdate m.crc } := ⟨_, rfl⟩
  rw [← hm2] at g2
  have hfw : forwards m = decide (n.address ≠ s &&& 0x7fff#16 ∧ classify n d ≠ .unicast) := by
    rw [hm]
    unfold forwards afterHeader
    simp only [hcl]
    have : (startDelimiter n).address = n.address := rfl
    rw [this]
    simp
  have hfw2 : forwards m2 = forwards m := by rw [hm2]; rfl
  have hl2 : 6 ≤ m2.length := by rw [hm2]; simp only [hlen]; omega
  have hs2 : m2.startReceived = true := by rw [hm2]; exact hms
  have hend : endDelimiter m2 = ({ deliver { m2 with startReceived := false, endReceived := true } with crc := crcInitialValue, length := 0, nextEscaped := false },
      if forwards m2 then [endDelimiterByte] else []) := by
    unfold endDelimiter; rw [if_pos ⟨hl2, hs2⟩]
  refine ⟨(endDelimiter m2).1, ?_, ?_⟩
  · rw [hstart, read_header N (startDelimiter n) rfl rfl rfl, ← hm, g2, read_end]
    rw [pfx_pfx, pfx_pfx, frame_eq, hend]
    simp only [hfw2, hfw]
    congr 2
    by_cases h : n.address ≠ s &&& 0x7fff#16 ∧ classify n d ≠ .unicast
    · rw [decide_eq_true h, if_pos h]
      simp [endDelimiterByte]
    · rw [decide_eq_false h, if_neg h]
      rfl
  · have hcrc : m2.crc = (cmd :: p ++ le c).foldl crcUpdate ([lo d, hi d, lo s, hi s].foldl crcUpdate crcInitialValue) := by
      rw [hm2]
      have : m.crc = [lo d, hi d, lo s, hi s].foldl crcUpdate crcInitialValue := by
        rw [hm]; unfold afterHeader; simp only [hcl]; rw [if_pos hc]; rfl
      simp only [this]
    have hd2 : m2.destRecognised = true := by rw [hm2]; exact hmd
    have hmsg : receivedMessage { m2 with startReceived := false, endReceived := true } = ⟨classify n d, d, s &&& 0x7fff#16, cmd, p ++ le c⟩ := by
      have hr : m2.rlen = p.length + 3 := by rw [hm2]; simp only [hlen, List.length_nil, Nat.zero_add]
      have hrx : m2.rxBuffer = cmd :: (p ++ le c ++ rest') := by rw [hm2]; simp
      unfold receivedMessage
      simp only [hr]
      rw [if_pos (by omega), hrx]
      have h3 : m2.rtype = classify n d := by rw [hm2, hm]; rfl
      have h4 : m2.rdest = d := by rw [hm2, hm]; rfl
      have h5 : m2.rsource = s &&& 0x7fff#16 := by rw [hm2, hm]; rfl
      rw [h3, h4, h5]
      have h6 : p.length + 3 - 1 = (p ++ le c).length := by rw [le_eq]; simp
      rw [h6]
      simp only [List.getD_cons_zero, List.drop_succ_cons, List.drop_zero, List.take_left]
    rw [hend]
    have hq : m2.receivedMessages = n.receivedMessages := by rw [hm2, hm]; rfl
    by_cases hz : m2.crc = 0#16
    · have hdel : deliver { m2 with startReceived := false, endReceived := true } = { m2 with startReceived := false, endReceived := true, receivedMessages := enqueue n.receivedMessages ⟨classify n d, d, s &&& 0x7fff#16, cmd, p ++ le c⟩, rcommand := cmd, rlen := (p ++ le c).length } := by
        unfold deliver
        rw [if_pos ⟨hd2, hz⟩, hmsg]
        simp only [hq, enqueue]
      rw [hdel]
      refine ⟨by rw [hm2, hm]; rfl, by rw [hm2, hm]; rfl, by rw [hm2, hm]; rfl, rfl, rfl, ?_, fun _ => rfl, fun h => absurd ?_ h⟩
      · rw [hm2]; exact g1
      · rw [← crc_zero, ← hcrc]; exact hz
    · have hdel : deliver { m2 with startReceived := false, endReceived := true } = { m2 with startReceived := false, endReceived := true } := by
        unfold deliver
        rw [if_neg (fun h => hz h.2)]
      rw [hdel]
      refine ⟨by rw [hm2, hm]; rfl, by rw [hm2, hm]; rfl, by rw [hm2, hm]; rfl, rfl, rfl, ?_, fun h => absurd ?_ hz, fun _ => hq⟩
      · rw [hm2]; exact g1
      · rw [hcrc, crc_zero]; exact h

/-- a node that is not addressed reads a frame -/
theorem read_frame_foreign (N : Nat) (n : Node) (d s : BitVec 16) (cmd : Byte) (p : List Byte)
    (c : BitVec 16) (hc : classify n d = .any) (h2 : p.length + 7 ≤ 255) (bs : List Byte) :
    ∃ n', Modm.Rpr.read N n (frame d s cmd p c ++ bs) = (Modm.Rpr.read N n' bs).map
        (pfx (if n.address ≠ s &&& 0x7fff#16 then frame d s cmd p c else [])) ∧
      n'.address = n.address ∧ n'.groupAddress = n.groupAddress ∧ n'.messagesToSend = n.messagesToSend ∧
      n'.startReceived = false ∧ n'.endReceived = true ∧ n'.rxBuffer = n.rxBuffer ∧ n'.receivedMessages = n.receivedMessages := by
  have hstart : Modm.Rpr.read N n (frame d s cmd p c ++ bs) = Modm.Rpr.read N (startDelimiter n)
      (stuff [lo d, hi d, lo s, hi s] ++ (stuff (cmd :: p ++ le c) ++ (0x7c#8 :: bs))) := by
    rw [frame_eq, List.cons_append, Modm.Rpr.read, if_pos (by decide)]
    simp
  obtain ⟨m, hm⟩ : ∃ m, m = afterHeader (startDelimiter n) d s := ⟨_, rfl⟩
  have hms : m.startReceived = true := by rw [hm]; rfl
  have hcl : classify (startDelimiter n) d = classify n d := rfl
  have hmd : m.destRecognised = false := by
    have : m.destRecognised = decide (classify n d ≠ .any) := by rw [hm]; rfl
    rw [this]; simpa using hc
  have hml : m.length = 4 := by rw [hm]; rfl
  have hlen : (cmd :: p ++ le c).length = p.length + 3 := by rw [le_eq]; simp
  have g2 := read_foreign N (cmd :: p ++ le c) m (0x7c#8 :: bs) hms (by rw [hm]; rfl) hmd (by omega) (by rw [hml, hlen]; omega)
  obtain ⟨m2, hm2⟩ : ∃ m2 : Node, m2 = { m with length := m.length + (cmd :: p ++ le c).length } := ⟨_, rfl⟩
  rw [← hm2] at g2
  have hfw : forwards m = decide (n.address ≠ s &&& 0x7fff#16) := by
    rw [hm]
    unfold forwards afterHeader
    simp only [hcl, hc]
    have : (startDelimiter n).address = n.address := rfl
    rw [this]
    simp
  have hfw2 : forwards m2 = forwards m := by rw [hm2]; rfl
  have hl2 : 6 ≤ m2.length := by rw [hm2]; simp only [hlen, hml]; omega
  have hs2 : m2.startReceived = true := by rw [hm2]; exact hms
  have hdel : deliver { m2 with startReceived := false, endReceived := true } = { m2 with startReceived := false, endReceived := true } := by
    have hd2 : m2.destRecognised = false := by rw [hm2]; exact hmd
    unfold deliver
    rw [if_neg (fun h => by simp only [hd2] at h; exact absurd h.1 (by decide))]
  have hend : endDelimiter m2 = ({ m2 with startReceived := false, endReceived := true, crc := crcInitialValue, length := 0, nextEscaped := false },
      if forwards m2 then [endDelimiterByte] else []) := by
    unfold endDelimiter; rw [if_pos ⟨hl2, hs2⟩, hdel]
  refine ⟨(endDelimiter m2).1, ?_, ?_⟩
  · rw [hstart, read_header N (startDelimiter n) rfl rfl rfl, ← hm, g2, read_end]
    rw [pfx_pfx, pfx_pfx, frame_eq, hend]
    simp only [hfw2, hfw]
    congr 2
    by_cases h : n.address ≠ s &&& 0x7fff#16
    · rw [decide_eq_true h, if_pos h]
      simp [endDelimiterByte]
    · rw [decide_eq_false h, if_neg h]
      rfl
  · rw [hend]
    exact ⟨by rw [hm2, hm]; rfl, by rw [hm2, hm]; rfl, by rw [hm2, hm]; rfl, rfl, rfl, by rw [hm2, hm]; rfl, by rw [hm2, hm]; rfl⟩

/-- how the specification sees the type of a message -/
def ofKind : Kind → MessageType
  | .broadcast => .broadcast
  | .group => .multicast
  | .individual => .unicast
  | .other => .any

/-- the addresses of a node are 15 bits wide (`initialize` masks them) -/
def Addressed (n : Node) : Prop := n.address.toNat < 32768 ∧ n.groupAddress.toNat < 32768

theorem and_7fff (v : BitVec 16) : (v &&& 0x7fff#16).toNat = v.toNat % 32768 := by
  rw [BitVec.toNat_and]
  exact Nat.and_two_pow_sub_one_eq_mod v.toNat 15

theorem and_8000 (v : BitVec 16) : v &&& 0x8000#16 ≠ 0#16 ↔ 32768 ≤ v.toNat := by
  have hv := v.isLt
  have h : v &&& 0x8000#16 = 0#16 ↔ v.getLsbD 15 = false := by
    constructor
    · intro h
      have := congrArg (fun x : BitVec 16 => x.getLsbD 15) h
      simpa using this
    · intro h
      apply BitVec.eq_of_getLsbD_eq; intro i hi
      have h8 : ∀ i < 16, (0x8000#16).getLsbD i = decide (i = 15) := by decide
      rw [BitVec.getLsbD_and, h8 i hi]
      by_cases h15 : i = 15
      · subst h15; rw [h]; rfl
      · simp [h15]
  rw [ne_eq, h, BitVec.getLsbD, Nat.testBit_eq_decide_div_mod_eq]
  simp only [decide_eq_false_iff_not]
  omega

theorem classify_kind (n : Node) (ha : Addressed n) (d : BitVec 16) : classify n d = ofKind (kind n.address n.groupAddress d) := by
  have hd := d.isLt
  have e1 : d = 0xffff#16 ↔ d.toNat = 65535 := by rw [← BitVec.toNat_inj]; rfl
  have e2 : ∀ a : BitVec 16, a = d &&& 0x7fff#16 ↔ a.toNat = d.toNat % 32768 := by intro a; rw [← BitVec.toNat_inj, and_7fff]
  obtain ⟨h1, h2⟩ := ha
  unfold classify kind
  simp only [e1, e2, and_8000]
  by_cases c1 : d.toNat = 65535
  · rw [if_pos c1, if_pos c1]; rfl
  rw [if_neg c1, if_neg c1]
  by_cases c2 : 32768 ≤ d.toNat
  · rw [if_pos c2]
    by_cases c3 : d.toNat = 32768 + n.groupAddress.toNat
    · rw [if_pos c3, if_pos (by omega)]; rfl
    · rw [if_neg c3, if_neg (by omega), if_neg (by omega)]; rfl
  · rw [if_neg c2, if_neg (show ¬ d.toNat = 32768 + n.groupAddress.toNat by omega)]
    by_cases c3 : d.toNat = n.address.toNat
    · rw [if_pos c3, if_pos (by omega)]; rfl
    · rw [if_neg c3, if_neg (by omega)]; rfl

/-! ### C42: round trip -/

/-- the destination field: all ones for a broadcast, top bit for a group, the 15-bit address otherwise -/
theorem wireDestination_spec (m : Message) : (wireDestination m).toNat =
    (if m.type = .broadcast then 65535 else if m.type = .multicast then 32768 + m.destination.toNat % 32768
     else m.destination.toNat % 32768) := by
  unfold wireDestination
  split
  · rfl
  split
  · rw [BitVec.toNat_or, and_7fff]
    have h : m.destination.toNat % 32768 < 2 ^ 15 := Nat.mod_lt _ (by norm_num)
    rw [Nat.or_comm, show (0x8000#16 : BitVec 16).toNat = 2 ^ 15 * 1 by rfl, ← Nat.two_pow_add_eq_or_of_lt h 1]
  · exact and_7fff _

/-- **C42** `sendMessage` on an idle bus writes the frame of the message with the right checksum -/
theorem C42_sends_frame (n : Node) (m : Message) (h : n.startReceived = false) :
    ∃ d c, d.toNat = (if m.type = .broadcast then 65535 else if m.type = .multicast then 32768 + m.destination.toNat % 32768
        else m.destination.toNat % 32768) ∧
      IsCrc (body d m.source m.command m.payload) c ∧
      (sendMessage n m).2.1 = frame d m.source m.command m.payload c := by
  refine ⟨wireDestination m, (body (wireDestination m) m.source m.command m.payload).foldl crcUpdate 0xffff#16,
    wireDestination_spec m, (Props.Sab2.crc_isCrc _ _).mpr rfl, ?_⟩
  unfold sendMessage
  rw [h]
  simp only [Bool.false_eq_true, if_false, writeMessage, messageBytes]
  unfold frame
  rw [stuff_append, le_eq, body_eq, stuff_eq, stuff_eq]
  simp [startDelimiterByte, endDelimiterByte, crcInitialValue]

example : (sendMessage (Node.init 8 1 2) ⟨.unicast, 5, 1, 0x7e, [0x7c]⟩).2.1 =
    [0x7e, 5, 0, 1, 0, 0x7d, 0x5e, 0x7d, 0x5c, 0x21, 0xf3, 0x7c] := by decide +kernel

/-- **C42 (partial)** An idle or busy node fed the frame of a message to its own address appends one message with the right
type, source and command to its receive queue. The payload is the sent one *followed by the two checksum bytes*
(full claim: the payload is the sent one; refuted by `C42_payload_counterexample`). -/
theorem C42_received_partial (N : Nat) (n : Node) (ha : Addressed n) (hb : n.rxBuffer.length = N + 8) (s : BitVec 16) (hs : s.toNat < 32768)
    (cmd : Byte) (p : List Byte) (c : BitVec 16) (hc : IsCrc (body n.address s cmd p) c) (h1 : p.length ≤ N + 1) (h2 : p.length ≤ 248)
    (hq : n.receivedMessages.length < 10) :
    ∃ n', Modm.Rpr.read N n (frame n.address s cmd p c) = some (n', [], []) ∧
      n'.receivedMessages = n.receivedMessages ++ [⟨.unicast, n.address, s, cmd, p ++ le c⟩] := by
  have hk : classify n n.address = .unicast := by
    rw [classify_kind n ha]
    unfold kind
    rw [if_neg (by have := ha.1; omega), if_neg (by have := ha.1; omega), if_pos rfl]; rfl
  have hs' : s &&& 0x7fff#16 = s := by
    apply BitVec.eq_of_toNat_eq; rw [and_7fff]; omega
  obtain ⟨n', g1, -, -, -, -, -, -, g2, -⟩ := read_frame_addressed N n hb n.address s cmd p c (by rw [hk]; decide) (by omega) (by omega) []
  refine ⟨n', ?_, ?_⟩
  · rw [List.append_nil] at g1
    rw [g1, if_neg (by rw [hk]; simp)]
    rfl
  · rw [g2 hc, hs', hk, enqueue, if_pos hq]

/-- **C42 (partial)** From node to node: what an idle node sends is received by a freshly initialised node if it is addressed
to that node, to its group (other than group 0x7fff, whose address is the broadcast address) or to all, with the right type,
source and command; of the addresses only 15 bits count. -/
theorem C42_node_to_node_partial (N : Nat) (sender : Node) (hidle : sender.startReceived = false) (address group : BitVec 16)
    (m : Message) (hs : m.source.toNat < 32768) (h1 : m.payload.length ≤ N + 1) (h2 : m.payload.length ≤ 248)
    (hto : m.type = .broadcast ∨
      (m.type = .multicast ∧ m.destination.toNat % 32768 = group.toNat % 32768 ∧ group.toNat % 32768 ≠ 32767) ∨
      (m.type = .unicast ∧ m.destination.toNat % 32768 = address.toNat % 32768)) :
    ∃ n' w d c, Modm.Rpr.read N (Node.init N address group) (sendMessage sender m).2.1 = some (n', w, []) ∧
      n'.receivedMessages = [⟨m.type, d, m.source, m.command, m.payload ++ le c⟩] := by
  obtain ⟨d, c, hd, hc, e⟩ := C42_sends_frame sender m hidle
  have ha : Addressed (Node.init N address group) := by
    constructor
    · show (address &&& 0x7fff#16).toNat < 32768
      rw [and_7fff]; omega
    · show (group &&& 0x7fff#16).toNat < 32768
      rw [and_7fff]; omega
  have hk : classify (Node.init N address group) d = m.type := by
    rw [classify_kind _ ha]
    unfold kind
    have e1 : (Node.init N address group).address.toNat = address.toNat % 32768 := and_7fff _
    have e2 : (Node.init N address group).groupAddress.toNat = group.toNat % 32768 := and_7fff _
    rw [e1, e2, hd]
    rcases hto with h | ⟨h, h', h''⟩ | ⟨h, h'⟩ <;> rw [h]
    · simp [ofKind]
    · simp only [reduceCtorEq, if_false, if_true]
      rw [if_neg (by omega), if_pos (by omega)]; rfl
    · simp only [reduceCtorEq, if_false]
      rw [if_neg (by omega), if_neg (by omega), if_pos (by omega)]; rfl
  have hne : m.type ≠ .any := by
    rcases hto with h | ⟨h, -⟩ | ⟨h, -⟩ <;> rw [h] <;> decide
  obtain ⟨n', g1, -, -, -, -, -, -, g2, -⟩ := read_frame_addressed N (Node.init N address group)
    (by simp [Node.init]) d m.source m.command m.payload c (by rw [hk]; exact hne) (by omega) (by omega) []
  have hs' : m.source &&& 0x7fff#16 = m.source := by
    apply BitVec.eq_of_toNat_eq; rw [and_7fff]; omega
  rw [List.append_nil, Modm.Rpr.read, Option.map_some] at g1
  refine ⟨n', _, d, c, by rw [e, g1]; rfl, ?_⟩
  rw [g2 hc, hs', hk]
  rfl

/-- **C42 is false**: whatever the message, the payload handed to the application differs from the one sent (two bytes longer) -/
theorem C42_payload_counterexample (N : Nat) (n : Node) (ha : Addressed n) (hb : n.rxBuffer.length = N + 8) (s : BitVec 16) (hs : s.toNat < 32768)
    (cmd : Byte) (p : List Byte) (h1 : p.length ≤ N + 1) (h2 : p.length ≤ 248) (hq : n.receivedMessages = []) :
    ∃ c n', IsCrc (body n.address s cmd p) c ∧ Modm.Rpr.read N n (frame n.address s cmd p c) = some (n', [], []) ∧
      ∃ m, n'.receivedMessages = [m] ∧ m.payload.length = p.length + 2 ∧ m.payload ≠ p := by
  obtain ⟨c, hc⟩ : ∃ c, IsCrc (body n.address s cmd p) c := ⟨_, (Props.Sab2.crc_isCrc _ _).mpr rfl⟩
  obtain ⟨n', g1, g2⟩ := C42_received_partial N n ha hb s hs cmd p c hc h1 h2 (by rw [hq]; simp)
  refine ⟨c, n', hc, g1, ⟨.unicast, n.address, s, cmd, p ++ le c⟩, by rw [g2, hq]; rfl, by simp [le], ?_⟩
  intro h
  have := congrArg List.length h
  simp [le] at this

/-- the message of the example above arrives as follows at node 5 -/
example : (update 8 (Node.init 8 5 2) [0x7e, 5, 0, 1, 0, 0x7d, 0x5e, 0x7d, 0x5c, 0x21, 0xf3, 0x7c]).map (·.1.receivedMessages) =
    some [⟨.unicast, 5, 1, 0x7e, [0x7c, 0x21, 0xf3]⟩] := by decide +kernel

/-- **C42** a frame with a wrong checksum is never delivered -/
theorem C42_bad_checksum (N : Nat) (n : Node) (hb : n.rxBuffer.length = N + 8) (d s : BitVec 16)
    (cmd : Byte) (p : List Byte) (c : BitVec 16) (hc : ¬ IsCrc (body d s cmd p) c) (h1 : p.length ≤ N + 1) (h2 : p.length ≤ 248) :
    ∃ n' out, Modm.Rpr.read N n (frame d s cmd p c) = some (n', out, []) ∧ n'.receivedMessages = n.receivedMessages := by
  by_cases h : classify n d = .any
  · obtain ⟨n', g1, -, -, -, -, -, -, g2⟩ := read_frame_foreign N n d s cmd p c h (by omega) []
    rw [List.append_nil] at g1
    exact ⟨n', _, by rw [g1]; rfl, g2⟩
  · obtain ⟨n', g1, -, -, -, -, -, -, -, g2⟩ := read_frame_addressed N n hb d s cmd p c h (by omega) (by omega) []
    rw [List.append_nil] at g1
    exact ⟨n', _, by rw [g1]; rfl, g2 hc⟩

/-! ### runs of content bytes, whatever the payload length -/

theorem read_run (N : Nat) (ds : List Byte) : ∀ (n : Node) (bs : List Byte), n.startReceived = true → n.nextEscaped = false →
    n.rxBuffer.length = N + 8 → 4 ≤ n.length → n.length + ds.length ≤ 255 →
    ∃ n', Modm.Rpr.read N n (stuff ds ++ bs) = (Modm.Rpr.read N n' bs).map (pfx (if forwards n then stuff ds else [])) ∧
      n'.length = n.length + ds.length ∧ n'.startReceived = true ∧ n'.nextEscaped = false ∧ n'.destRecognised = n.destRecognised ∧
      n'.rxBuffer.length = N + 8 ∧ n'.address = n.address ∧ n'.groupAddress = n.groupAddress ∧ forwards n' = forwards n ∧
      n'.messagesToSend = n.messagesToSend := by
  induction ds with
  | nil =>
    intro n bs hs he hb h4 h1
    refine ⟨n, ?_, by simp, hs, he, rfl, hb, rfl, rfl, rfl, rfl⟩
    simp only [stuff, List.nil_append, ite_self]
    exact (pfx_nil _).symm
  | cons d ds ih =>
    intro n bs hs he hb h4 h1
    simp only [List.length_cons] at h1
    obtain ⟨n1, e1, e2, e3, e4, e5, e6, e7, e8, e9, e10⟩ : ∃ n1, content N n d = some (n1, if forwards n then writeByteEscaped d else []) ∧
        n1.length = n.length + 1 ∧ n1.startReceived = true ∧ n1.nextEscaped = false ∧ n1.destRecognised = n.destRecognised ∧
        n1.rxBuffer.length = N + 8 ∧ n1.address = n.address ∧ n1.groupAddress = n.groupAddress ∧ forwards n1 = forwards n ∧
        n1.messagesToSend = n.messagesToSend := by
      obtain ⟨k, hk⟩ : ∃ k, n.length = k + 4 := ⟨n.length - 4, by omega⟩
      unfold content
      simp only [hk]
      rw [Nat.mod_eq_of_lt (by omega)]
      unfold payloadByte
      simp only []
      split
      · split
        · rw [if_pos (by omega)]
          exact ⟨_, rfl, rfl, hs, he, rfl, by simpa using hb, rfl, rfl, rfl, rfl⟩
        · exact ⟨_, rfl, rfl, hs, he, rfl, hb, rfl, rfl, rfl, rfl⟩
      · exact ⟨_, rfl, rfl, hs, he, rfl, hb, rfl, rfl, rfl, rfl⟩
    obtain ⟨n2, g1, g2, g3, g4, g5, g6, g7, g8, g9, g10⟩ := ih n1 bs e3 e4 e6 (by omega) (by omega)
    refine ⟨n2, ?_, by rw [g2, e2, List.length_cons]; omega, g3, g4, by rw [g5, e5], g6, by rw [g7, e7], by rw [g8, e8], by rw [g9, e9], by rw [g10, e10]⟩
    rw [stuff_eq, List.flatMap_cons, List.append_assoc, ← stuff_eq, read_escaped N n hs he, e1, Option.bind_some, g1, pfx_pfx, e9]
    congr 2
    cases forwards n <;> simp

/-! ### C43: memory safety -/

/-- at most 255 content bytes between delimiters; `k` counts those since the last one -/
def Short : Nat → List Byte → Prop
  | _, [] => True
  | k, b :: bs => if b = 0x7e#8 ∨ b = 0x7c#8 then Short 0 bs else if b = 0x7d#8 then Short k bs else k + 1 ≤ 255 ∧ Short (k + 1) bs

theorem content_safe (N : Nat) (n : Node) (hb : n.rxBuffer.length = N + 8) (hl : n.length ≤ 254) (d : Byte) :
    ∃ n' o, content N n d = some (n', o) ∧ n'.rxBuffer.length = N + 8 ∧ n'.length = n.length + 1 := by
  unfold content
  split
  case h_5 l h0 h1 h2 h3 =>
    have : 4 ≤ n.length := by
      have : n.length ≠ 0 := by simpa using h0
      have : n.length ≠ 1 := by simpa using h1
      have : n.length ≠ 2 := by simpa using h2
      have : n.length ≠ 3 := by simpa using h3
      omega
    rw [Nat.mod_eq_of_lt (by omega)]
    unfold payloadByte
    simp only []
    split
    · split
      · rw [if_pos (by omega)]
        exact ⟨_, _, rfl, by simpa using hb, rfl⟩
      · exact ⟨_, _, rfl, hb, rfl⟩
    · exact ⟨_, _, rfl, hb, rfl⟩
  all_goals rename_i h; exact ⟨_, _, rfl, hb, by simp only [destination, source]; omega⟩

theorem deliver_rx (n : Node) : (deliver n).rxBuffer = n.rxBuffer := by unfold deliver; split <;> rfl

/-- **C43 (partial)** With at most 255 content bytes between two delimiters no byte stream makes the receiver write outside its
buffer, from every state (full claim: every byte stream; refuted below). -/
theorem C43_memory_safe_partial (N : Nat) (bs : List Byte) : ∀ (n : Node), n.rxBuffer.length = N + 8 → Short n.length bs →
    ∃ n' out rest, Modm.Rpr.read N n bs = some (n', out, rest) ∧ n'.rxBuffer.length = N + 8 := by
  induction bs with
  | nil => intro n hb _; exact ⟨n, [], [], rfl, hb⟩
  | cons b bs ih =>
    intro n hb hg
    rw [Modm.Rpr.read]
    by_cases h1 : b = startDelimiterByte
    · rw [if_pos h1]
      have h1' : b = 0x7e#8 := h1
      simp only [Short, h1', true_or, if_true] at hg
      exact ih (startDelimiter n) hb hg
    rw [if_neg h1]
    by_cases h2 : b = endDelimiterByte
    · rw [if_pos h2]
      have h2' : b = 0x7c#8 := h2
      simp only [Short, h2', or_true, if_true] at hg
      obtain ⟨n', out, rest, g1, g2⟩ := ih (endDelimiter n).1
        (by unfold endDelimiter; split
            · rw [← hb]; exact congrArg List.length (deliver_rx _)
            · exact hb)
        (by have : (endDelimiter n).1.length = 0 := by unfold endDelimiter; split <;> rfl
            rw [this]; exact hg)
      exact ⟨n', _, rest, by rw [g1]; rfl, g2⟩
    rw [if_neg h2]
    by_cases h3 : b = controlEscapeByte
    · rw [if_pos h3]
      have h3' : b = 0x7d#8 := h3
      have hn1 : ¬ (b = 0x7e#8 ∨ b = 0x7c#8) := not_or.mpr ⟨h1, h2⟩
      rw [Short, if_neg hn1, if_pos h3'] at hg
      exact ih _ hb hg
    rw [if_neg h3]
    have hn1 : ¬ (b = 0x7e#8 ∨ b = 0x7c#8) := not_or.mpr ⟨h1, h2⟩
    rw [Short, if_neg hn1, if_neg (show ¬ b = 0x7d#8 from h3)] at hg
    split
    · obtain ⟨n1, o, e1, e2, e3⟩ := content_safe N { n with nextEscaped := false } hb (by simp only; omega) (if n.nextEscaped then b ^^^ 0x20#8 else b)
      rw [e1, Option.bind_some]
      obtain ⟨n', out, rest, g1, g2⟩ := ih n1 e2 (by rw [e3]; exact hg.2)
      exact ⟨n', _, rest, by simp only [g1]; rfl, g2⟩
    · exact ⟨_, [], bs, rfl, hb⟩

/-- **C43 is false**: for every buffer size, from every state, a start delimiter, a header addressed to the node and 252 more
bytes make the 8-bit counter wrap: the receiver writes in front of its buffer. -/
theorem C43_length_wraps_counterexample (N : Nat) (n : Node) (hb : n.rxBuffer.length = N + 8) (d s : BitVec 16) (hc : classify n d ≠ .any)
    (ds : List Byte) (hd : ds.length = 251) (x : Byte) (bs : List Byte) :
    Modm.Rpr.read N n (0x7e#8 :: (stuff (le d ++ le s ++ ds ++ [x]) ++ bs)) = none := by
  rw [Modm.Rpr.read, if_pos (by decide)]
  rw [stuff_append, stuff_append, le_eq, le_eq]
  have : [lo d, hi d] ++ [lo s, hi s] = [lo d, hi d, lo s, hi s] := rfl
  rw [this, List.append_assoc, List.append_assoc, read_header N (startDelimiter n) rfl rfl rfl]
  obtain ⟨n', g1, g2, g3, g4, g5, g6, -⟩ := read_run N ds (afterHeader (startDelimiter n) d s) (stuff [x] ++ bs) rfl rfl hb (Nat.le_refl 4)
    (by show 4 + ds.length ≤ 255; omega)
  have hl : n'.length = 255 := by rw [g2]; show 4 + ds.length = 255; omega
  have hr : n'.destRecognised = true := by
    rw [g5]
    have : (afterHeader (startDelimiter n) d s).destRecognised = decide (classify n d ≠ .any) := rfl
    rw [this]; simpa using hc
  have hx : stuff [x] = writeByteEscaped x := by rw [stuff_eq]; simp
  rw [g1, hx, read_escaped N n' g3 g4]
  have : content N n' x = none := by
    unfold content
    simp only [hl]
    unfold payloadByte
    simp only [hr, if_true]
    rw [if_pos (by omega), if_neg (by omega)]
    rfl
  rw [this]
  rfl

example : Modm.Rpr.read 40 (Node.init 40 5 2) (0x7e :: 5 :: 0 :: 1 :: 0 :: List.replicate 252 0x55) = none := by decide +kernel

/-! ### C44: the transmit queue -/

theorem content_queue (N : Nat) (n n' : Node) (d : Byte) (o : List Byte) (h : content N n d = some (n', o)) : n'.messagesToSend = n.messagesToSend := by
  unfold content at h
  split at h
  case h_5 =>
    rw [Option.map_eq_some_iff] at h
    obtain ⟨m, h1, h2⟩ := h
    have : m = n' := congrArg Prod.fst h2
    subst this
    unfold payloadByte at h1
    split at h1
    · split at h1
      · split at h1
        · injection h1 with h1; rw [← h1]
        · exact absurd h1 (by simp)
      · injection h1 with h1; rw [← h1]
    · injection h1 with h1; rw [← h1]
  all_goals
    injection h with h
    have := congrArg Prod.fst h
    simp only at this
    rw [← this]
    try rfl

theorem deliver_queue (n : Node) : (deliver n).messagesToSend = n.messagesToSend := by unfold deliver; split <;> rfl

theorem read_queue (N : Nat) (bs : List Byte) : ∀ (n n' : Node) (out rest : List Byte), Modm.Rpr.read N n bs = some (n', out, rest) →
    n'.messagesToSend = n.messagesToSend := by
  induction bs with
  | nil => intro n n' out rest h; rw [Modm.Rpr.read] at h; injection h with h; injection h with h _; rw [← h]
  | cons b bs ih =>
    intro n n' out rest h
    rw [Modm.Rpr.read] at h
    split at h
    · exact (ih _ _ _ _ h).trans rfl
    split at h
    · rw [Option.map_eq_some_iff] at h
      obtain ⟨⟨m, o, r⟩, h1, h2⟩ := h
      have e : m = n' := congrArg Prod.fst h2
      subst e
      rw [ih _ _ _ _ h1]
      unfold endDelimiter; split
      · exact deliver_queue _
      · rfl
    split at h
    · exact (ih _ _ _ _ h).trans rfl
    split at h
    · rw [Option.bind_eq_some_iff] at h
      obtain ⟨⟨m, o⟩, h1, h2⟩ := h
      simp only [Option.map_eq_some_iff] at h2
      obtain ⟨⟨m2, o2, r2⟩, h3, h4⟩ := h2
      have e : m2 = n' := congrArg Prod.fst h4
      subst e
      rw [ih _ _ _ _ h3, content_queue _ _ _ _ _ h1]
    · injection h with h; injection h with h _; rw [← h]

theorem sendPending_cons (n : Node) (he : n.endReceived = true) (m : Message) (r : List Message) (hq : n.messagesToSend = m :: r) :
    sendPending n = ({ n with messagesToSend := r.drop 1 }, messageBytes m) := by
  unfold sendPending
  rw [if_pos he]
  simp only [hq, writeMessage, popToSend, List.drop_succ_cons, List.drop_zero]

/-- **C44 (partial)** A message accepted while the bus is busy and the queue is empty stays queued as long as no end of frame
was seen, and the first `update()` called after an end of frame writes it, once (full claim: any number of queued messages). -/
theorem C44_single_message_partial (N : Nat) (n : Node) (m : Message) (hq : n.messagesToSend = []) (hs : n.startReceived = true) :
    ((sendMessage n m).2.2 = true ∧ (sendMessage n m).1.messagesToSend = [m] ∧ (sendMessage n m).2.1 = []) ∧
    (∀ k : Node, k.messagesToSend = [m] → k.endReceived = false → ∀ bs k' out rest, update N k bs = some (k', out, rest) →
      k'.messagesToSend = [m] ∧ Modm.Rpr.read N k bs = some (k', out, rest)) ∧
    (∀ k : Node, k.messagesToSend = [m] → k.endReceived = true → ∀ bs k' out rest, update N k bs = some (k', out, rest) →
      k'.messagesToSend = [] ∧ ∃ fwd, out = messageBytes m ++ fwd ∧
        Modm.Rpr.read N { k with messagesToSend := [] } bs = some (k', fwd, rest)) := by
  refine ⟨?_, ?_, ?_⟩
  · unfold sendMessage; rw [hs, hq]; simp
  · intro k hk he bs k' out rest h
    have : sendPending k = (k, []) := by unfold sendPending; rw [he]; simp
    unfold update at h
    rw [this] at h
    have h' : (Modm.Rpr.read N k bs).map (pfx []) = some (k', out, rest) := h
    rw [pfx_nil] at h'
    exact ⟨by rw [read_queue N bs _ _ _ _ h', hk], h'⟩
  · intro k hk he bs k' out rest h
    have : sendPending k = ({ k with messagesToSend := [] }, messageBytes m) := by
      rw [sendPending_cons k he m [] hk]; rfl
    unfold update at h
    rw [this] at h
    have h' : (Modm.Rpr.read N { k with messagesToSend := [] } bs).map (pfx (messageBytes m)) = some (k', out, rest) := h
    rw [Option.map_eq_some_iff] at h'
    obtain ⟨⟨m1, o, r⟩, h1, h2⟩ := h'
    have e1 : m1 = k' := congrArg Prod.fst h2
    have e2 : messageBytes m ++ o = out := congrArg (fun x => x.2.1) h2
    have e3 : r = rest := congrArg (fun x => x.2.2) h2
    subst e1 e3
    exact ⟨read_queue N bs _ _ _ _ h1, o, e2.symm, h1⟩

/-- **C44 is false**: two messages are accepted while a frame for somebody else passes; afterwards the first one is written and
both have left the queue: the second one is never written. For every frame, every pair of messages. -/
theorem C44_second_lost_counterexample (N : Nat) (n : Node) (hq : n.messagesToSend = []) (m1 m2 : Message)
    (d s : BitVec 16) (cmd : Byte) (p : List Byte) (c : BitVec 16) (hc : classify n d = .any) (h2 : p.length ≤ 248)
    (he : n.endReceived = false) :
    ∃ n1 n2 n3 n4 n5 n6 fwd, update N n [0x7e#8] = some (n1, [], []) ∧
      sendMessage n1 m1 = (n2, [], true) ∧ sendMessage n2 m2 = (n3, [], true) ∧
      update N n3 (frame d s cmd p c).tail = some (n4, fwd, []) ∧ (fwd = [] ∨ fwd = frame d s cmd p c) ∧
      update N n4 [] = some (n5, messageBytes m1, []) ∧ n5.messagesToSend = [] ∧ update N n5 [] = some (n6, [], []) ∧ n6 = n5 := by
  have hsp : sendPending n = (n, []) := by unfold sendPending; rw [he]; simp
  have hu1 : update N n [0x7e#8] = some (startDelimiter n, [], []) := by
    unfold update; rw [hsp]; rfl
  obtain ⟨n4, g1, g2, g3, g4, g5, g6, g7, g8⟩ := read_frame_foreign N { n with messagesToSend := [m1, m2] } d s cmd p c hc (by omega) []
  refine ⟨_, { startDelimiter n with messagesToSend := [m1] }, { startDelimiter n with messagesToSend := [m1, m2] }, n4,
    { n4 with messagesToSend := [] }, { n4 with messagesToSend := [] },
    (if n.address ≠ s &&& 0x7fff#16 then frame d s cmd p c else []), hu1, ?_, ?_, ?_, ?_, ?_, rfl, ?_, rfl⟩
  · unfold sendMessage
    have : (startDelimiter n).messagesToSend = [] := hq
    rw [if_pos (show (startDelimiter n).startReceived = true from rfl), this]; rfl
  · rfl
  · have : sendPending { startDelimiter n with messagesToSend := [m1, m2] } = ({ startDelimiter n with messagesToSend := [m1, m2] }, []) := rfl
    unfold update
    rw [this]
    have e : Modm.Rpr.read N { n with messagesToSend := [m1, m2] } (frame d s cmd p c ++ []) =
        Modm.Rpr.read N { startDelimiter n with messagesToSend := [m1, m2] } (frame d s cmd p c).tail := by
      rw [List.append_nil, frame_eq, Modm.Rpr.read, if_pos (by decide)]; rfl
    rw [e] at g1
    simp only [g1, Modm.Rpr.read, Option.map_some, pfx, List.append_nil, List.nil_append]
  · split
    · exact Or.inr rfl
    · exact Or.inl rfl
  · have : sendPending n4 = ({ n4 with messagesToSend := [] }, messageBytes m1) := by
      rw [sendPending_cons n4 g6 m1 [m2] g4]; rfl
    unfold update; rw [this]
    simp only [Modm.Rpr.read, Option.map_some, List.append_nil]
  · have : sendPending { n4 with messagesToSend := [] } = ({ n4 with messagesToSend := [] }, []) := by
      unfold sendPending; split <;> rfl
    unfold update; rw [this]; rfl

/-- **C44 is false** also for a single queued message: sending another message directly, after the frame ended, drops it unsent -/
theorem C44_direct_send_drops_counterexample (n : Node) (m x : Message) (hq : n.messagesToSend = [m]) (hs : n.startReceived = false) :
    (sendMessage n x).1.messagesToSend = [] ∧ (sendMessage n x).2.1 = messageBytes x := by
  unfold sendMessage
  rw [hs]
  simp only [Bool.false_eq_true, if_false, writeMessage, popToSend, hq]
  exact ⟨rfl, trivial⟩

/-- such a state is reached by queueing during a frame that ends in the same or a later `update()` -/
example : (((update 8 (Node.init 8 1 2) [0x7e]).bind fun x =>
    update 8 (sendMessage x.1 ⟨.unicast, 5, 1, 3, []⟩).1 [9, 0, 8, 0, 1, 2, 3, 0x7c]).map
      fun y => (y.1.messagesToSend.length, y.1.startReceived)) = some (1, false) := by decide +kernel

/-! ### C55: forwarding -/

/-- **C55** Every frame, valid or not, with at most 255 content bytes is passed on unchanged unless the node sent it or it is
addressed to this node alone; in those two cases nothing is written. -/
theorem C55_forwards (N : Nat) (n : Node) (ha : Addressed n) (hb : n.rxBuffer.length = N + 8) (d s : BitVec 16)
    (cmd : Byte) (p : List Byte) (c : BitVec 16) (h2 : p.length ≤ 248) :
    ∃ n', Modm.Rpr.read N n (frame d s cmd p c) = some (n',
      (if s.toNat % 32768 = n.address.toNat ∨ kind n.address n.groupAddress d = .individual then [] else frame d s cmd p c), []) ∧
      n'.address = n.address ∧ n'.groupAddress = n.groupAddress ∧ n'.rxBuffer.length = N + 8 ∧ n'.messagesToSend = n.messagesToSend := by
  have hstart : Modm.Rpr.read N n (frame d s cmd p c) = Modm.Rpr.read N (startDelimiter n)
      (stuff [lo d, hi d, lo s, hi s] ++ (stuff (cmd :: p ++ le c) ++ [0x7c#8])) := by
    rw [frame_eq, Modm.Rpr.read, if_pos (by decide)]
  have hlen : (cmd :: p ++ le c).length = p.length + 3 := by rw [le_eq]; simp
  obtain ⟨m2, g1, g2, g3, g4, g5, g6, g7, g8, g9, g10⟩ := read_run N (cmd :: p ++ le c) (afterHeader (startDelimiter n) d s) [0x7c#8] rfl rfl hb
    (Nat.le_refl 4) (by rw [hlen]; show 4 + _ ≤ 255; omega)
  have hl2 : 6 ≤ m2.length := by rw [g2, hlen]; show 6 ≤ 4 + _; omega
  have hfw : forwards (afterHeader (startDelimiter n) d s) = decide (¬ (s.toNat % 32768 = n.address.toNat ∨ kind n.address n.groupAddress d = .individual)) := by
    unfold forwards afterHeader
    simp only []
    have h1 : (startDelimiter n).address = n.address := rfl
    have h2 : classify (startDelimiter n) d = classify n d := rfl
    have h3 : n.address = s &&& 0x7fff#16 ↔ s.toNat % 32768 = n.address.toNat := by rw [← BitVec.toNat_inj, and_7fff, eq_comm]
    have h4 : classify n d = .unicast ↔ kind n.address n.groupAddress d = .individual := by
      rw [classify_kind n ha]; cases kind n.address n.groupAddress d <;> simp [ofKind]
    rw [h1, h2]
    simp only [h3, ne_eq, h4, not_or]
    simp
  have hend : endDelimiter m2 = ({ deliver { m2 with startReceived := false, endReceived := true } with crc := crcInitialValue, length := 0, nextEscaped := false },
      if forwards m2 then [endDelimiterByte] else []) := by
    unfold endDelimiter; rw [if_pos ⟨hl2, g3⟩]
  refine ⟨(endDelimiter m2).1, ?_, ?_⟩
  · rw [hstart, read_header N (startDelimiter n) rfl rfl rfl, g1, read_end, pfx_pfx, pfx_pfx, frame_eq, hend]
    simp only [g9, hfw]
    by_cases h : s.toNat % 32768 = n.address.toNat ∨ kind n.address n.groupAddress d = .individual
    · rw [decide_eq_false (not_not.mpr h), if_pos h]; rfl
    · rw [decide_eq_true h, if_neg h]
      simp [endDelimiterByte, Modm.Rpr.read, pfx]
  · have e : ∀ k : Node, (deliver k).address = k.address ∧ (deliver k).groupAddress = k.groupAddress := by
      intro k; unfold deliver; split <;> exact ⟨rfl, rfl⟩
    rw [hend]
    refine ⟨(e _).1.trans g7, (e _).2.trans g8, ?_, (deliver_queue _).trans g10⟩
    rw [← g6]; exact congrArg List.length (deliver_rx _)

example : (update 8 (Node.init 8 1 2) [0x7e, 5, 0, 9, 0, 3, 0x7d, 0x5c, 0xff, 0xc8, 0x7c]).map (·.2.1) =
    some [0x7e, 5, 0, 9, 0, 3, 0x7d, 0x5c, 0xff, 0xc8, 0x7c] := by decide +kernel

/-! ### C56: a whole ring -/

/-- the frame travels along the ring: every node reads what its predecessor wrote -/
def around (N : Nat) : List Node → List Byte → Option (List Node × List Byte)
  | [], bs => some ([], bs)
  | n :: ns, bs => (Modm.Rpr.read N n bs).bind fun x => (around N ns x.2.1).map fun y => (x.1 :: y.1, y.2)

/-- node `n'` is node `n` after it received `m` -/
def Got (m : Message) (n n' : Node) : Prop := n'.address = n.address ∧ n'.receivedMessages = enqueue n.receivedMessages m

theorem kind_bcast (a g : BitVec 16) : kind a g 0xffff#16 = .broadcast := rfl

/-- **C56** A broadcast from `s` passes every other node of the ring, is delivered once by each of them, reaches `s` again
unchanged and is not forwarded by `s`. -/
theorem C56_broadcast_ring (N : Nat) (ns : List Node) (s : BitVec 16) (hs : s.toNat < 32768) (cmd : Byte) (p : List Byte) (c : BitVec 16)
    (hc : IsCrc (body 0xffff#16 s cmd p) c) (h1 : p.length ≤ N + 1) (h2 : p.length ≤ 248)
    (hn : ∀ n ∈ ns, Addressed n ∧ n.rxBuffer.length = N + 8 ∧ n.address ≠ s) :
    (∃ ns', around N ns (frame 0xffff#16 s cmd p c) = some (ns', frame 0xffff#16 s cmd p c) ∧
      List.Forall₂ (Got ⟨.broadcast, 0xffff#16, s, cmd, p ++ le c⟩) ns ns') ∧
    (∀ n, Addressed n → n.rxBuffer.length = N + 8 → n.address = s → ∃ n', Modm.Rpr.read N n (frame 0xffff#16 s cmd p c) = some (n', [], [])) := by
  have hs' : s &&& 0x7fff#16 = s := by apply BitVec.eq_of_toNat_eq; rw [and_7fff]; omega
  constructor
  · induction ns with
    | nil => exact ⟨[], rfl, .nil⟩
    | cons n ns ih =>
      obtain ⟨ns', g1, g2⟩ := ih (fun k hk => hn k (List.mem_cons_of_mem _ hk))
      obtain ⟨ha, hb, hne⟩ := hn n List.mem_cons_self
      have hk : classify n 0xffff#16 = .broadcast := rfl
      obtain ⟨n', e1, e2, -, -, -, -, -, e3, -⟩ := read_frame_addressed N n hb 0xffff#16 s cmd p c (by rw [hk]; decide) (by omega) (by omega) []
      rw [List.append_nil, if_pos ⟨by rw [hs']; exact hne, by rw [hk]; decide⟩] at e1
      refine ⟨n' :: ns', ?_, .cons ⟨e2, by rw [e3 hc, hs', hk]⟩ g2⟩
      unfold around
      rw [e1]
      simp only [Modm.Rpr.read, Option.map_some, pfx, Option.bind_some, List.append_nil, g1]
  · intro n ha hb he
    obtain ⟨n', g1, -⟩ := C55_forwards N n ha hb 0xffff#16 s cmd p c h2
    rw [if_pos (Or.inl (by rw [he]; omega))] at g1
    exact ⟨n', g1⟩

theorem around_nil (N : Nat) (ns : List Node) : around N ns [] = some (ns, []) := by
  induction ns with
  | nil => rfl
  | cons n ns ih => unfold around; simp only [Modm.Rpr.read, Option.bind_some, ih, Option.map_some]

/-- **C56** A message to one node is passed on by the nodes before it, delivered once by it and removed from the ring:
the nodes behind it are untouched and nothing comes back. -/
theorem C56_unicast_ring (N : Nat) (pre : List Node) (t : Node) (post : List Node) (s : BitVec 16) (hs : s.toNat < 32768) (cmd : Byte)
    (p : List Byte) (c : BitVec 16) (ht : Addressed t) (htb : t.rxBuffer.length = N + 8) (hc : IsCrc (body t.address s cmd p) c)
    (h1 : p.length ≤ N + 1) (h2 : p.length ≤ 248)
    (hn : ∀ n ∈ pre, Addressed n ∧ n.address ≠ s ∧ n.address ≠ t.address) :
    ∃ pre' t', around N (pre ++ t :: post) (frame t.address s cmd p c) = some (pre' ++ t' :: post, []) ∧
      Got ⟨.unicast, t.address, s, cmd, p ++ le c⟩ t t' ∧ List.Forall₂ (fun n n' => n'.receivedMessages = n.receivedMessages) pre pre' := by
  have hs' : s &&& 0x7fff#16 = s := by apply BitVec.eq_of_toNat_eq; rw [and_7fff]; omega
  induction pre with
  | nil =>
    have hk : classify t t.address = .unicast := by
      rw [classify_kind t ht]
      unfold kind
      rw [if_neg (by have := ht.1; omega), if_neg (by have := ht.1; omega), if_pos rfl]; rfl
    obtain ⟨n', e1, e2, -, -, -, -, -, e3, -⟩ := read_frame_addressed N t htb t.address s cmd p c (by rw [hk]; decide) (by omega) (by omega) []
    rw [List.append_nil, if_neg (by rw [hk]; simp)] at e1
    refine ⟨[], n', ?_, ⟨e2, by rw [e3 hc, hs', hk]⟩, .nil⟩
    rw [List.nil_append, around, e1]
    simp only [Modm.Rpr.read, Option.map_some, pfx, Option.bind_some, List.append_nil, around_nil, List.nil_append]
  | cons n pre ih =>
    obtain ⟨pre', t', g1, g2, g3⟩ := ih (fun k hk => hn k (List.mem_cons_of_mem _ hk))
    obtain ⟨ha, hne, hnt⟩ := hn n List.mem_cons_self
    have hnt' : n.address.toNat ≠ t.address.toNat := fun h => hnt (BitVec.eq_of_toNat_eq h)
    have hk : classify n t.address = .any := by
      rw [classify_kind n ha]
      have h0 := ht.1
      unfold kind
      rw [if_neg (by omega), if_neg (by omega), if_neg (by omega)]; rfl
    obtain ⟨n', e1, -, -, -, -, -, -, e2⟩ := read_frame_foreign N n t.address s cmd p c hk (by omega) []
    rw [List.append_nil, if_pos (by rw [hs']; exact hne)] at e1
    refine ⟨n' :: pre', t', ?_, g2, .cons e2 g3⟩
    rw [List.cons_append, around, e1]
    simp only [Modm.Rpr.read, Option.map_some, pfx, Option.bind_some, List.append_nil, g1, List.cons_append]

example : (around 8 [Node.init 8 2 0, Node.init 8 5 0, Node.init 8 6 0] (messageBytes ⟨.unicast, 5, 1, 3, [7]⟩)).map
    (fun x => (x.1.map (·.receivedMessages.length), x.2)) = some ([0, 1, 0], []) := by decide +kernel

end Props.Rpr
