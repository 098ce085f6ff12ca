import Verif.Lemmas.MsgPack
import Verif.Props.Connection
import Verif.Props.Payload
/-!
# C96: the MsgPack serializer, down to the bytes

No assumption about the codec here: `MsgPack.codec` is the library's algorithm, for every order in which Go may walk through maps.
-/
namespace Wamp.MsgPack
open Wamp Wamp.Spec

/-- The library does what C14, C18 and the rest assume of a codec, for all content that fits. -/
theorem C96_faithful (order : List (Str × Str) → List (Str × Str)) (horder : ∀ l, (order l).Perm l) :
    Faithful (codec order) msgpackWire Fits := by
  intro l hl
  obtain ⟨b, h1, h2⟩ := good order horder (.arr l) hl
  refine ⟨b, h1, ?_⟩
  have := h2 b.length (Nat.le_refl _) []
  rw [List.append_nil] at this
  simp only [codec, decode, this, msgpackWire, wire, wireL_map]

/-- **C96** Every message of every type with values in the range of their types and lengths below 2^32 is written by
`MsgPackSerializer.Serialize` and read back by `Deserialize` with the same IDs, URIs, options, args and kwargs; text may be any bytes,
nesting any depth. -/
theorem C96_roundtrip (order : List (Str × Str) → List (Str × Str)) (horder : ∀ l, (order l).Perm l) (m : Msg)
    (hfit : Fits m.marshal) (ht : Transmissible m) :
    ∃ b, (codec order).serialize m = .ok b ∧ (codec order).deserialize b = .ok (received msgpackWire m) :=
  (C14_roundtrip_partial Fits (codec order) m hfit ht).2.2 (C96_faithful order horder)

/-- **C96** The reader does not depend on the order in which the writer walked through its maps. -/
theorem C96_any_order (order order' : List (Str × Str) → List (Str × Str)) (horder : ∀ l, (order l).Perm l)
    (horder' : ∀ l, (order' l).Perm l) (l : List Val) (hl : Fits l) :
    ∃ b b', (codec order).enc l = some b ∧ (codec order').enc l = some b' ∧ decode b = decode b' := by
  obtain ⟨b, h1, h2⟩ := C96_faithful order horder l hl
  obtain ⟨b', h3, h4⟩ := C96_faithful order' horder' l hl
  exact ⟨b, b', h1, h3, h2.trans h4.symm⟩

/-- **C96** Any number of such messages over a raw socket, each below 2^24 bytes, cut anywhere. -/
theorem C96_connection (order : List (Str × Str) → List (Str × Str)) (horder : ∀ l, (order l).Perm l) (l : List Msg)
    (hl : ∀ m ∈ l, Fits m.marshal ∧ Transmissible m)
    (hsize : ∀ m ∈ l, ∀ b, (codec order).serialize m = .ok b → b.length < 2 ^ 24) :
    ∃ s, RawSocket.writeMessages (codec order) l = some s ∧ ∀ cut n, l.length ≤ n →
      ∃ k ≤ l.length, RawSocket.readMessages (codec order) n (s.take cut) = (l.take k).map (fun m => .ok (received msgpackWire m)) ∧
        ∀ j ≤ l.length, (j ≤ k ↔ ∃ p, RawSocket.writeMessages (codec order) (l.take j) = some p ∧ p.length ≤ cut) :=
  RawSocket.C94_connection (codec order) msgpackWire Fits l
    (fun m hm => ⟨C96_faithful order horder, (hl m hm).1, (hl m hm).2, .inr (.inr rfl)⟩) hsize

/-- **C96** The same for payloads (`SerializePayload`/`DeserializePayload` with serializer 2). -/
theorem C96_payload (order : List (Str × Str) → List (Str × Str)) (horder : ∀ l, (order l).Perm l) (cs : Codecs)
    (hc : cs.msgpack = codec order) (args : GoSlice) (kwargs : GoMap) (hne : ¬ (args.getD [] = [] ∧ kwargs.getD [] = []))
    (hfit : Fits [.arr (args.getD []), .map (kwargs.getD [])]) :
    ∃ b, serializePayload cs 2 args kwargs = .ok b ∧
      deserializePayload cs 2 b = .ok (some ((args.getD []).map msgpackWire),
        if kwargs.getD [] = [] then none else some (onDict msgpackWire (kwargs.getD []))) := by
  refine C18_payload_roundtrip cs 2 (codec order) (by rw [← hc]; rfl) msgpackWire (wire_norm msgpackLeaf) Fits (C96_faithful order horder)
    args kwargs hne ?_
  rintro l (rfl | rfl)
  · simp only [Fits, fits, fitsL, Bool.and_eq_true] at hfit ⊢
    exact ⟨rfl, hfit.2.1, trivial⟩
  · exact hfit

/-- **C96** Bytes after a message are ignored: a frame may contain anything behind the message (unlike CBOR). -/
theorem C96_trailing (order : List (Str × Str) → List (Str × Str)) (horder : ∀ l, (order l).Perm l) (m : Msg)
    (hfit : Fits m.marshal) (ht : Transmissible m) (junk : Str) :
    ∃ b, (codec order).serialize m = .ok b ∧ (codec order).deserialize (b ++ junk) = .ok (received msgpackWire m) := by
  obtain ⟨b, h1, h2⟩ := good order horder (.arr m.marshal) hfit
  obtain ⟨b', h3, h4⟩ := C96_roundtrip order horder m hfit ht
  have e : b' = b := by
    have : (codec order).serialize m = .ok b := by simp [Codec.serialize, codec, h1, Res.ofOption]
    rw [h3] at this; injection this
  subst e
  refine ⟨b', h3, ?_⟩
  have g1 := h2 (b' ++ junk).length (by simp) junk
  have g2 := h2 b'.length (Nat.le_refl _) []
  rw [List.append_nil] at g2
  have : decode (b' ++ junk) = decode b' := by
    unfold decode
    simp only [g1, g2, msgpackWire, wire]
  simpa only [Codec.deserialize, codec, this] using h4

/-- **C12** The crashes of the parser can be caused by bytes of a peer: a single byte is enough (an empty list, or nil). -/
theorem C12_msgpack_bytes (order : List (Str × Str) → List (Str × Str)) :
    (codec order).deserialize [0x90] = .panic ∧ (codec order).deserialize [0xc0] = .panic ∧
    (codec order).deserialize [0x92, 0x01, 0xa0] = .panic :=
  ⟨rfl, rfl, rfl⟩

/-! ### Cases -/

/-- All kinds of values. -/
def sample : Msg := newCall 7 (some [(str "timeout", .int .int (-5))]) (str "com.p")
  (some [.bool true, .f64 (.fin true (2 ^ 52 + 1) (-53)), .f32 .nan, .bytes [1, 2], .int .i16 (-300), .uint .uint 70000])
  (some [(str "a", .strs [str "x", [0xff]]), (str "k", .arr [.nil, .u64 (2 ^ 63)])])

example : Fits sample.marshal ∧ Transmissible sample := ⟨by unfold Fits; decide +kernel, by decide, rfl⟩

example : ((codec List.reverse).serialize (newPublish 1 none (str "t") none (some [(str "a", .nil), (str "b", .bool true)]))) =
    .ok [0x96, 0xcf, 0, 0, 0, 0, 0, 0, 0, 16, 0xcf, 0, 0, 0, 0, 0, 0, 0, 1, 0x80, 0xa1, 116, 0x90, 0x82, 0xa1, 98, 0xc3, 0xa1, 97, 0xc0] := by
  decide

end Wamp.MsgPack
