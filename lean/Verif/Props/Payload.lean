import Verif.Model.Payload
import Verif.Model.Wire
import Verif.Spec.Wire
/-!
# C18–C21: application payloads
-/
namespace Wamp
open Spec

/-- The codec selected by a serializer id. -/
def codecOf (cs : Codecs) : Nat → Option Codec
  | 1 => some cs.json
  | 2 => some cs.msgpack
  | 3 => some cs.cbor
  | _ => none

theorem serializePayload_codec {cs : Codecs} {id : Nat} {c : Codec} (h : codecOf cs id = some c) (a : GoSlice) (k : GoMap) :
    serializePayload cs id a k = encodePayload c a k := by
  unfold codecOf at h
  split at h <;> cases h <;> rfl

theorem deserializePayload_codec {cs : Codecs} {id : Nat} {c : Codec} (h : codecOf cs id = some c) (b : Str) :
    deserializePayload cs id b = decodePayload c b := by
  unfold codecOf at h
  split at h <;> cases h <;> rfl

/-- **C18** For every serializer id 1..3 whose codec is faithful, and every args/kwargs not both empty: serializing
succeeds, and deserializing gives the same args and kwargs up to the format's widening; absent args are read back as
the empty list, absent kwargs as the nil map. -/
theorem C18_payload_roundtrip (cs : Codecs) (id : Nat) (c : Codec) (hc : codecOf cs id = some c)
    (norm : Val → Val) (hn : WireNorm norm) (ok : List Val → Prop) (hf : Faithful c norm ok)
    (args : GoSlice) (kwargs : GoMap) (hne : ¬ (args.getD [] = [] ∧ kwargs.getD [] = []))
    (hok : ∀ l, (l = [.arr (args.getD [])] ∨ l = [.arr (args.getD []), .map (kwargs.getD [])]) → ok l) :
    ∃ b, serializePayload cs id args kwargs = .ok b ∧
      deserializePayload cs id b = .ok (some ((args.getD []).map norm),
        if kwargs.getD [] = [] then none else some (onDict norm (kwargs.getD []))) := by
  rw [serializePayload_codec hc]
  simp only [deserializePayload_codec hc]
  have key : ∃ l, prepareForEncode args kwargs = l ∧ l ≠ [] ∧
      (l = [.arr (args.getD [])] ∧ kwargs.getD [] = [] ∨
       l = [.arr (args.getD []), .map (kwargs.getD [])] ∧ kwargs.getD [] ≠ []) := by
    rcases args with _ | ⟨_ | ⟨x, a⟩⟩ <;> rcases kwargs with _ | ⟨_ | ⟨y, k⟩⟩ <;>
      simp [prepareForEncode, Val.ofSlice, Val.ofMap] at hne ⊢
  obtain ⟨l, hl, hl0, hcase⟩ := key
  have hlen : ¬ l.length = 0 := by simpa using hl0
  simp only [encodePayload, hl, if_neg hlen]
  have hokl : ok l := hok l (by rcases hcase with h | h; exact Or.inl h.1; exact Or.inr h.1)
  obtain ⟨b, h1, h2⟩ := hf l hokl
  refine ⟨b, by simp [h1, Res.ofOption], ?_⟩
  simp only [decodePayload, h2, Res.ofOption, Res.bind_ok]
  rcases hcase with ⟨rfl, hk⟩ | ⟨rfl, hk⟩
  · simp [payloadDecode, hn.arr, Val.asSlice?, Res.ofOption, hk]
  · simp [payloadDecode, hn.arr, hn.map, Val.asSlice?, Val.asMap?, Res.ofOption, if_neg hk, onDict]

/-- Hypotheses are satisfiable: args only, kwargs only. -/
example : ¬ ((some [Val.u64 1] : GoSlice).getD [] = [] ∧ (none : GoMap).getD [] = []) := by simp
example : ¬ ((none : GoSlice).getD [] = [] ∧ (some [(str "k", Val.nil)] : GoMap).getD [] = []) := by simp

/-- **C19** (refuted) An empty payload (nil or empty args and kwargs) is serialized to no bytes for every serializer id
0..3; reading those back gives an error for every codec that rejects empty input (as JSON, CBOR and MsgPack do), and for
serializer 0 one argument holding the empty byte string. -/
theorem C19_empty_payload_lost (cs : Codecs) (args : GoSlice) (kwargs : GoMap)
    (ha : args.getD [] = []) (hk : kwargs.getD [] = []) :
    (∀ id c, codecOf cs id = some c → c.dec [] = none →
      serializePayload cs id args kwargs = .ok [] ∧ deserializePayload cs id [] = .err) ∧
    serializePayload cs 0 args kwargs = .ok [] ∧
    deserializePayload cs 0 [] = .ok (some [.bytes []], some []) := by
  refine ⟨fun id c hc hd => ?_, ?_, rfl⟩
  · rw [serializePayload_codec hc, deserializePayload_codec hc]
    simp [encodePayload, prepareForEncode, ha, hk, decodePayload, hd, Res.ofOption]
  · simp [serializePayload, ha, hk]

example : (none : GoSlice).getD [] = [] ∧ (some [] : GoMap).getD [] = [] := ⟨rfl, rfl⟩

/-- **C19** (partial) If no bytes are taken to mean the empty payload (the caller does not decode them), nothing else is
lost: serializing gives no bytes only for the empty payload, provided the codec never encodes anything to no bytes. -/
theorem C19_empty_only_partial (cs : Codecs) (id : Nat) (c : Codec) (hc : codecOf cs id = some c)
    (hb : ∀ l, c.enc l ≠ some []) (args : GoSlice) (kwargs : GoMap)
    (h : serializePayload cs id args kwargs = .ok []) : args.getD [] = [] ∧ kwargs.getD [] = [] := by
  rw [serializePayload_codec hc] at h
  unfold encodePayload at h
  simp only at h
  split at h
  · next he =>
    rcases args with _ | ⟨_ | ⟨x, a⟩⟩ <;> rcases kwargs with _ | ⟨_ | ⟨y, k⟩⟩ <;>
      simp [prepareForEncode, Val.ofSlice, Val.ofMap] at he ⊢
  · exfalso
    cases he : c.enc (prepareForEncode args kwargs) with
    | none => simp [he, Res.ofOption] at h
    | some b =>
      simp [he, Res.ofOption] at h
      subst h
      exact hb _ he

/-- **C20** With serializer 0: one byte-string argument without kwargs is passed through unchanged in both directions;
any other args/kwargs that are not both empty are refused. -/
theorem C20_raw_payload (cs : Codecs) :
    (∀ b kw, (kw : GoMap).getD [] = [] →
      serializePayload cs 0 (some [.bytes b]) kw = .ok b ∧
      deserializePayload cs 0 b = .ok (some [.bytes b], some [])) ∧
    (∀ args kwargs, ¬ ((args : GoSlice).getD [] = [] ∧ (kwargs : GoMap).getD [] = []) →
      (¬ ∃ b, args = some [.bytes b] ∧ kwargs.getD [] = []) → serializePayload cs 0 args kwargs = .err) := by
  constructor
  · intro b kw hk
    refine ⟨?_, rfl⟩
    simp [serializePayload, hk, item, Res.orPanic, Val.asBytes?, Res.ofOption]
  · intro args kwargs hne hno
    rcases args with _ | ⟨_ | ⟨x, _ | ⟨y, a⟩⟩⟩
    · simp [serializePayload] at hne ⊢; simp [hne]
    · simp [serializePayload] at hne ⊢; simp [hne]
    · by_cases hk : kwargs.getD [] = []
      · have hx : x.asBytes? = none := by
          cases x <;> try rfl
          rename_i b
          exact absurd ⟨b, rfl, hk⟩ hno
        simp [serializePayload, hk, item, Res.orPanic, hx, Res.ofOption]
      · simp [serializePayload, hk]
    · simp [serializePayload]

example (cs : Codecs) : serializePayload cs 0 (some [.bytes [1, 2]]) (some [(str "k", .nil)]) = .err := rfl

/-- **C93** Serializer 1 is JSON, 2 MsgPack and 3 CBOR, in both directions: what is sent is that codec's encoding, and what that codec
cannot read is refused. -/
theorem C93_known_serializers (cs : Codecs) (id : Nat) (c : Codec) (hc : (id, c) ∈ [(1, cs.json), (2, cs.msgpack), (3, cs.cbor)]) :
    (∀ a args b, c.enc [.arr (a :: args)] = some b → serializePayload cs id (some (a :: args)) none = .ok b) ∧
    (∀ a args, c.enc [.arr (a :: args)] = none → serializePayload cs id (some (a :: args)) none = .err) ∧
    (∀ b args, c.dec b = some [.arr args] → deserializePayload cs id b = .ok (some args, none)) ∧
    (∀ b, c.dec b = none → deserializePayload cs id b = .err) := by
  have : ∀ c : Codec,
      (∀ a args b, c.enc [.arr (a :: args)] = some b → encodePayload c (some (a :: args)) none = .ok b) ∧
      (∀ a args, c.enc [.arr (a :: args)] = none → encodePayload c (some (a :: args)) none = .err) ∧
      (∀ b args, c.dec b = some [.arr args] → decodePayload c b = .ok (some args, none)) ∧
      (∀ b, c.dec b = none → decodePayload c b = .err) := by
    intro c
    refine ⟨fun a args b h => ?_, fun a args h => ?_, fun b args h => ?_, fun b h => ?_⟩
    · simp [encodePayload, prepareForEncode, Val.ofSlice, h, Res.ofOption]
    · simp [encodePayload, prepareForEncode, Val.ofSlice, h, Res.ofOption]
    · simp [decodePayload, h, Res.ofOption, payloadDecode, Val.asSlice?]
    · simp [decodePayload, h, Res.ofOption]
  simp only [List.mem_cons, Prod.mk.injEq, List.not_mem_nil, or_false] at hc
  rcases hc with ⟨rfl, rfl⟩ | ⟨rfl, rfl⟩ | ⟨rfl, rfl⟩ <;> exact this _

/-- **C93** Every other serializer but 0 is refused, in both directions and whatever the payload. -/
theorem C93_unknown_serializers (cs : Codecs) (id : Nat) (h : 3 < id) :
    (∀ args kwargs, serializePayload cs id args kwargs = .err) ∧ ∀ b, deserializePayload cs id b = .err := by
  obtain ⟨n, rfl⟩ : ∃ n, id = n + 4 := ⟨id - 4, by omega⟩
  exact ⟨fun _ _ => rfl, fun _ => rfl⟩

example : ∃ cs : Codecs, (2, cs.msgpack) ∈ [(1, cs.json), (2, cs.msgpack), (3, cs.cbor)] ∧ cs.msgpack.enc [.arr [.nil]] = some [7] ∧
    cs.json.enc [.arr [.nil]] = none :=
  ⟨⟨⟨fun _ => none, fun _ => none⟩, ⟨fun _ => none, fun _ => none⟩, ⟨fun _ => some [7], fun _ => none⟩⟩, .tail _ (.head _), rfl, rfl⟩

/-- **C21** (first part) Decoding a payload list never crashes; it yields args/kwargs exactly for the empty list (both
nil), a list of one array, and a list of an array and a map; every other list is an error. -/
theorem C21_payload_decode (l : List Val) :
    payloadDecode l ≠ .panic ∧
    ∀ a k, payloadDecode l = .ok (a, k) ↔
      (l = [] ∧ a = none ∧ k = none) ∨
      (∃ x, l = [x] ∧ x.asSlice? = some a ∧ k = none) ∨
      (∃ x y, l = [x, y] ∧ x.asSlice? = some a ∧ y.asMap? = some k) := by
  rcases l with _ | ⟨x, _ | ⟨y, _ | ⟨z, l⟩⟩⟩
  · refine ⟨by simp [payloadDecode], fun a k => ?_⟩
    simp only [payloadDecode, Res.ok.injEq, Prod.mk.injEq]
    constructor
    · rintro ⟨rfl, rfl⟩; simp
    · rintro (⟨-, rfl, rfl⟩ | ⟨_, h, _⟩ | ⟨_, _, h, _⟩)
      · exact ⟨rfl, rfl⟩
      all_goals cases h
  · refine ⟨by cases hx : x.asSlice? <;> simp [payloadDecode, hx, Res.ofOption], fun a k => ?_⟩
    constructor
    · intro h
      cases hx : x.asSlice? <;> simp [payloadDecode, hx, Res.ofOption] at h
      exact Or.inr (Or.inl ⟨x, rfl, by simp [hx, h.1], h.2.symm⟩)
    · rintro (⟨h, _⟩ | ⟨_, h, hx, rfl⟩ | ⟨_, _, h, _⟩) <;> cases h
      simp [payloadDecode, hx, Res.ofOption]
  · refine ⟨by cases hx : x.asSlice? <;> cases hy : y.asMap? <;> simp [payloadDecode, hx, hy, Res.ofOption], fun a k => ?_⟩
    constructor
    · intro h
      cases hx : x.asSlice? <;> cases hy : y.asMap? <;> simp [payloadDecode, hx, hy, Res.ofOption] at h
      exact Or.inr (Or.inr ⟨x, y, rfl, by simp [hx, h.1], by simp [hy, h.2]⟩)
    · rintro (⟨h, _⟩ | ⟨_, h, _⟩ | ⟨_, _, h, hx, hy⟩) <;> cases h
      simp [payloadDecode, hx, hy, Res.ofOption]
  · simp [payloadDecode]

example : payloadDecode [.arr [.u64 1], .map []] = .ok (some [.u64 1], some []) := rfl
example : payloadDecode [.map []] = .err := rfl

/-- **C21** (refuted part) `DecodeCBOR` crashes exactly on payloads that decode to the empty list, or to a list whose only
element is an array. -/
theorem C21_decodeCBOR_crashes (c : Codec) (b : Str) :
    decodeCBOR c b = .panic ↔ c.dec b = some [] ∨ ∃ x a, c.dec b = some [x] ∧ x.asSlice? = some a := by
  cases h : c.dec b with
  | none => simp [decodeCBOR, h, Res.ofOption]
  | some l =>
    rcases l with _ | ⟨x, _ | ⟨y, l⟩⟩
    · simp [decodeCBOR, h, Res.ofOption, item, Res.orPanic]
    · cases hx : x.asSlice? <;> simp [decodeCBOR, h, Res.ofOption, item, Res.orPanic, hx]
    · cases hx : x.asSlice? <;> cases hy : y.asMap? <;> simp [decodeCBOR, h, Res.ofOption, item, Res.orPanic, hx, hy]

/-- **C21** (partial) `DecodeCBOR` otherwise returns the first two elements if they are an array and a map (ignoring any
further elements), or an error. -/
theorem C21_decodeCBOR_partial (c : Codec) (b : Str) (a : GoSlice) (k : GoMap) :
    decodeCBOR c b = .ok (a, k) ↔
      ∃ x y rest, c.dec b = some (x :: y :: rest) ∧ x.asSlice? = some a ∧ y.asMap? = some k := by
  cases h : c.dec b with
  | none => simp [decodeCBOR, h, Res.ofOption]
  | some l =>
    rcases l with _ | ⟨x, _ | ⟨y, l⟩⟩
    · simp [decodeCBOR, h, Res.ofOption, item, Res.orPanic]
    · cases hx : x.asSlice? <;> simp [decodeCBOR, h, Res.ofOption, item, Res.orPanic, hx]
    · constructor
      · intro h'
        cases hx : x.asSlice? <;> cases hy : y.asMap? <;>
          simp [decodeCBOR, h, Res.ofOption, item, Res.orPanic, hx, hy] at h'
        exact ⟨x, y, l, rfl, by simp [hx, h'.1], by simp [hy, h'.2]⟩
      · rintro ⟨_, _, _, h', hx, hy⟩
        cases h'
        simp [decodeCBOR, h, Res.ofOption, item, Res.orPanic, hx, hy]

/-- `EncodeCBOR` followed by `DecodeCBOR`: faithful when both are non-nil, refused when args are nil. -/
theorem encodeCBOR_decodeCBOR (c : Codec) (norm : Val → Val) (hn : WireNorm norm) (ok : List Val → Prop)
    (hf : Faithful c norm ok) (a : List Val) (k : Dict) (hok : ok [.arr a, .map k]) (hok' : ok [.arrNil, .map k]) :
    (∃ b, encodeCBOR c (some a) (some k) = .ok b ∧ decodeCBOR c b = .ok (some (a.map norm), some (onDict norm k))) ∧
    (∃ b, encodeCBOR c none (some k) = .ok b ∧ decodeCBOR c b = .err) := by
  obtain ⟨b, h1, h2⟩ := hf _ hok
  obtain ⟨b', h3, h4⟩ := hf _ hok'
  refine ⟨⟨b, by simp [encodeCBOR, Val.ofSlice, Val.ofMap, h1, Res.ofOption], ?_⟩,
    b', by simp [encodeCBOR, Val.ofSlice, Val.ofMap, h3, Res.ofOption], ?_⟩
  · simp [decodeCBOR, h2, Res.ofOption, item, Res.orPanic, hn.arr, hn.map, Val.asSlice?, Val.asMap?, onDict]
  · simp [decodeCBOR, h4, Res.ofOption, item, Res.orPanic, hn.arrNil, Val.asSlice?]

end Wamp
