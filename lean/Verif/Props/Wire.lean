import Verif.Lemmas.Float
import Verif.Props.Messages
import Verif.Model.Wire
import Verif.Spec.Wire
/-!
# C14, C15: messages over a wire format
-/
namespace Wamp
open Spec

theorem texts_map_str (l : List Str) : texts? (l.map Val.str) = some l := by
  induction l with
  | nil => rfl
  | cons s l ih =>
    have ih' : List.mapM Val.asStr? (l.map Val.str) = some l := ih
    simp [texts?, List.mapM_cons, Val.asStr?, ih']

theorem dget_map (norm : Val → Val) (d : Dict) (k : Str) :
    dget (d.map fun p => (p.1, norm p.2)) k = (dget d k).map norm := by
  induction d with
  | nil => rfl
  | cons p d ih => simp only [List.map_cons, dget]; split <;> simp [ih]

section
variable {norm : Val → Val} (hn : WireNorm norm)
include hn

theorem norm_hello (realm authID : Str) (ms : Option (List Str)) (x r : GoMap) :
    shape .hello ((Msg.hello realm authID ms x r).marshal.map norm) =
      some (received norm (.hello realm authID ms x r)) := by
  have e : (Msg.hello realm authID ms x r).marshal.map norm =
      [norm (.u64 1), .str realm, .map
        [(str "authextra", .map (onDict norm (x.getD []))), (str "authid", .str authID),
         (str "authmethods", norm (Val.ofStrs ms)), (str "roles", norm (Val.ofMap r))]] := by
    simp [Msg.marshal, hn.str, hn.map, Val.ofMap, orEmpty, onDict]
  rw [e]
  have hm : ∃ l, (norm (Val.ofStrs ms) = .arr l ∨ norm (Val.ofStrs ms) = .nil ∧ l = []) ∧ texts? l = some (ms.getD []) := by
    cases ms with
    | none => exact ⟨[], Or.inr ⟨hn.strsNil, rfl⟩, rfl⟩
    | some l => exact ⟨l.map Val.str, Or.inl (hn.strs l), texts_map_str l⟩
  have hr : norm (Val.ofMap r) = .map (onDict norm (r.getD [])) ∨ norm (Val.ofMap r) = .nil ∧ r = none := by
    cases r with
    | none => exact Or.inr ⟨hn.mapNil, rfl⟩
    | some d => exact Or.inl (by simp [Val.ofMap, hn.map, onDict])
  obtain ⟨l, hl, ht⟩ := hm
  rcases hl with hl | ⟨hl, rfl⟩ <;> rcases hr with hr | ⟨hr, rfl⟩ <;> rw [hl, hr]
  all_goals
    simp only [shape, text?, Val.asStr?, dict?, Val.asMap?, Option.bind_eq_bind, Option.bind_some]
  · have : subList (some [(str "authextra", .map (onDict norm (x.getD []))), (str "authid", .str authID),
         (str "authmethods", .arr l), (str "roles", .map (onDict norm (r.getD [])))]) (str "authmethods") = l := rfl
    rw [this, ht]; rfl
  · have : subList (some [(str "authextra", .map (onDict norm (x.getD []))), (str "authid", .str authID),
         (str "authmethods", .arr l), (str "roles", .nil)]) (str "authmethods") = l := rfl
    rw [this, ht]; rfl
  · have : subList (some [(str "authextra", .map (onDict norm (x.getD []))), (str "authid", .str authID),
         (str "authmethods", .nil), (str "roles", .map (onDict norm (r.getD [])))]) (str "authmethods") = [] := rfl
    rw [this, ht]; rfl
  · have : subList (some [(str "authextra", .map (onDict norm (x.getD []))), (str "authid", .str authID),
         (str "authmethods", .nil), (str "roles", .nil)]) (str "authmethods") = [] := rfl
    rw [this, ht]; rfl

set_option linter.unusedSimpArgs false in
theorem norm_shape (m : Msg) (ht : Transmissible m) (hid : ∀ n ∈ ids m, asUInt64 (norm (.u64 n)) = some n) :
    shape m.kind (m.marshal.map norm) = some (received norm m) := by
  cases m with
  | hello realm authID ms x r => exact norm_hello hn realm authID ms x r
  | abort d r a k =>
    obtain ⟨h1, h2⟩ := ht
    rcases d with _ | d
    · exact absurd rfl h1
    rcases a with _ | a <;> rcases k with _ | k
    case none.some => exact absurd rfl (h2 (by simp))
    all_goals
      simp [Msg.kind, Msg.marshal, marshalTailAbort, shape, received, hn.str, hn.map, hn.arr, Val.ofMap, Val.asMap?,
        Val.asStr?, Val.asSlice?, onMap, onDict, onArgs]
  | authenticate s e =>
    simp [Msg.kind, Msg.marshal, shape, received, hn.str, hn.map, orEmpty, Val.ofMap, Val.asMap?, Val.asStr?, onDict]
  | challenge s d =>
    rcases d with _ | d
    · exact absurd rfl ht
    simp [Msg.kind, Msg.marshal, shape, received, hn.str, hn.map, Val.ofMap, Val.asMap?, Val.asStr?, onDict, onMap]
  | goodbye d s =>
    rcases d with _ | d
    · exact absurd rfl ht
    simp [Msg.kind, Msg.marshal, shape, received, hn.str, hn.map, Val.ofMap, Val.asMap?, Val.asStr?, onDict, onMap]
  | welcome s d =>
    rcases d with _ | d
    · exact absurd rfl ht
    simp [ids] at hid
    simp [Msg.kind, Msg.marshal, shape, received, hn.str, hn.map, Val.ofMap, Val.asMap?, Val.asStr?, onDict, onMap, hid]
  | subscribe _ d _ =>
    rcases d with _ | d
    · exact absurd rfl ht
    simp [ids] at hid
    simp [Msg.kind, Msg.marshal, shape, received, hn.str, hn.map, Val.ofMap, Val.asMap?, Val.asStr?, onDict, onMap, hid]
  | register _ d _ =>
    rcases d with _ | d
    · exact absurd rfl ht
    simp [ids] at hid
    simp [Msg.kind, Msg.marshal, shape, received, hn.str, hn.map, Val.ofMap, Val.asMap?, Val.asStr?, onDict, onMap, hid]
  | cancel _ d =>
    rcases d with _ | d
    · exact absurd rfl ht
    simp [ids] at hid
    simp [Msg.kind, Msg.marshal, shape, received, hn.str, hn.map, Val.ofMap, Val.asMap?, Val.asStr?, onDict, onMap, hid]
  | interrupt _ d =>
    rcases d with _ | d
    · exact absurd rfl ht
    simp [ids] at hid
    simp [Msg.kind, Msg.marshal, shape, received, hn.str, hn.map, Val.ofMap, Val.asMap?, Val.asStr?, onDict, onMap, hid]
  | error t r d u a k =>
    rcases d with _ | d
    · exact absurd rfl ht
    simp [ids] at hid
    cases a <;> cases k <;>
    simp [Msg.kind, Msg.marshal, marshalTail, shape, received, hn.str, hn.map, hn.arr, Val.ofMap, Val.asMap?, Val.asSlice?, Val.asStr?, onDict, onMap, onArgs, hid]
  | publish r d u a k =>
    rcases d with _ | d
    · exact absurd rfl ht
    simp [ids] at hid
    cases a <;> cases k <;>
    simp [Msg.kind, Msg.marshal, marshalTail, shape, received, hn.str, hn.map, hn.arr, Val.ofMap, Val.asMap?, Val.asSlice?, Val.asStr?, onDict, onMap, onArgs, hid]
  | event t r d a k =>
    rcases d with _ | d
    · exact absurd rfl ht
    simp [ids] at hid
    cases a <;> cases k <;>
    simp [Msg.kind, Msg.marshal, marshalTail, shape, received, hn.str, hn.map, hn.arr, Val.ofMap, Val.asMap?, Val.asSlice?, Val.asStr?, onDict, onMap, onArgs, hid]
  | call r d u a k b =>
    obtain ⟨h1, rfl⟩ := ht
    rcases d with _ | d
    · exact absurd rfl h1
    simp [ids] at hid
    cases a <;> cases k <;>
    simp [Msg.kind, Msg.marshal, marshalTail, shape, received, hn.str, hn.map, hn.arr, Val.ofMap, Val.asMap?, Val.asSlice?, Val.asStr?, onDict, onMap, onArgs, hid]
  | result r d a k b =>
    obtain ⟨h1, rfl⟩ := ht
    rcases d with _ | d
    · exact absurd rfl h1
    simp [ids] at hid
    cases a <;> cases k <;>
    simp [Msg.kind, Msg.marshal, marshalTail, shape, received, hn.str, hn.map, hn.arr, Val.ofMap, Val.asMap?, Val.asSlice?, Val.asStr?, onDict, onMap, onArgs, hid]
  | invocation r g d a k b =>
    obtain ⟨h1, rfl⟩ := ht
    rcases d with _ | d
    · exact absurd rfl h1
    simp [ids] at hid
    cases a <;> cases k <;>
    simp [Msg.kind, Msg.marshal, marshalTail, shape, received, hn.str, hn.map, hn.arr, Val.ofMap, Val.asMap?, Val.asSlice?, Val.asStr?, onDict, onMap, onArgs, hid]
  | yield r d a k b =>
    obtain ⟨h1, rfl⟩ := ht
    rcases d with _ | d
    · exact absurd rfl h1
    simp [ids] at hid
    cases a <;> cases k <;>
    simp [Msg.kind, Msg.marshal, marshalTail, shape, received, hn.str, hn.map, hn.arr, Val.ofMap, Val.asMap?, Val.asSlice?, Val.asStr?, onDict, onMap, onArgs, hid]
  | _ =>
    simp [ids] at hid
    simp [Msg.kind, Msg.marshal, shape, received, hid]

omit hn in
theorem kind_code_mem (k : Kind) : (k.code, k) ∈ wampCodes := by cases k <;> decide

omit hn in
theorem toMessage_of_shape {k : Kind} {t : Val} {rest : List Val} {m : Msg} (ht : asUInt64 t = some k.code)
    (h : shape k (t :: rest) = some m) : toMessage (t :: rest) = .ok m := by
  rw [((C13_dispatch t rest).1 _ _ ht (kind_code_mem k)).1]
  exact ((C11_parse_iff_layout k _).1 m).2 h

theorem roundtrip (c : Codec) (ok : List Val → Prop) (hf : Faithful c norm ok)
    (m : Msg) (hok : ok m.marshal) (ht : Transmissible m)
    (hid : ∀ n ∈ m.type :: ids m, asUInt64 (norm (.u64 n)) = some n) :
    ∃ b, c.serialize m = .ok b ∧ c.deserialize b = .ok (received norm m) := by
  obtain ⟨b, h1, h2⟩ := hf _ hok
  refine ⟨b, by simp [Codec.serialize, h1, Res.ofOption], ?_⟩
  have hs := norm_shape hn m ht (fun n hx => hid n (List.mem_cons_of_mem _ hx))
  have hp : parse m.kind (m.marshal.map norm) = .ok (received norm m) :=
    ((C11_parse_iff_layout _ _).1 _).2 hs
  have hk := parse_kind hp
  have htm : toMessage (m.marshal.map norm) = .ok (received norm m) := by
    have hh := (C16_marshal_layout m).1
    cases hm : m.marshal with
    | nil => rw [hm] at hh; cases hh
    | cons v rest =>
      rw [hm] at hh hs
      injection hh with hh
      subst hh
      rw [List.map_cons] at hs ⊢
      exact toMessage_of_shape (hid m.type (by simp)) hs
  simp only [Codec.deserialize, h2, Res.ofOption, Res.bind_ok, htm, hk, hp]

end

/-! ### The three formats -/

theorem wireL_eq (leaf : Val → Val) (l : List Val) : wireL leaf l = l.map (wire leaf) := by
  induction l with
  | nil => simp [wireL]
  | cons v l ih => simp [wireL, ih]

theorem wireM_eq (leaf : Val → Val) (d : Dict) : wireM leaf d = d.map fun p => (p.1, wire leaf p.2) := by
  induction d with
  | nil => simp [wireM]
  | cons p l ih => obtain ⟨k, v⟩ := p; simp [wireM, ih]

/-- JSON, CBOR and MsgPack (and any other format built like them) satisfy the expectations on the structure. -/
theorem wire_norm (leaf : Val → Val) : WireNorm (wire leaf) where
  str s := by simp [wire]
  arr l := by simp [wire, wireL_eq]
  map d := by simp [wire, wireM_eq]
  strs l := by simp [wire]
  strsNil := by simp [wire]
  arrNil := by simp [wire]
  mapNil := by simp [wire]

theorem f64OfNat_value (n : Nat) (h : n ≤ 2 ^ 53) : (f64OfNat n).toU64 = n := by
  obtain ⟨m, e, hr, ht, -⟩ := round_nat n h
  have hlt : n < 2 ^ 64 := by omega
  rw [f64OfNat, hr, signedFloat, GoFloat.toU64]
  simp only [ht, Bool.not_false, Bool.true_and, hlt, decide_true, if_true]
  split
  · rename_i h; exact h.symm
  · rfl

/-- **C15** Every identifier up to `2^53` is the same number after being written as a JSON number, read back as a
`float64` and converted. -/
theorem C15_json_ids (n : Nat) (h : n ≤ 2 ^ 53) : asUInt64 (jsonWire (.u64 n)) = some n := by
  simp [jsonWire, wire, jsonLeaf, asUInt64, f64OfNat_value n h]

/-- The bound is sharp: the next number does not survive. -/
example : asUInt64 (jsonWire (.u64 (2 ^ 53 + 1))) = some (2 ^ 53) := by decide +kernel
example : asUInt64 (jsonWire (.u64 9007199254740991)) = some 9007199254740991 := by decide +kernel

theorem cbor_ids (n : Nat) : asUInt64 (cborWire (.u64 n)) = some n := by
  simp [cborWire, wire, cborLeaf, asUInt64]

theorem msgpack_ids (n : Nat) : asUInt64 (msgpackWire (.u64 n)) = some n := by
  simp [msgpackWire, wire, msgpackLeaf, asUInt64]

theorem type_le (m : Msg) : m.type ≤ 2 ^ 53 := by
  rw [Msg.type]; cases m.kind <;> decide

/-- **C14** (partial) For every message of every class with any contents that is `Transmissible` and every codec that
does to values what JSON (CBOR, MsgPack) does: serializing succeeds and deserializing gives the message with the same
identifiers, URIs, options/details, args and kwargs up to the format's widening. With JSON the identifiers must be
WAMP identifiers (at most `2^53`). Missing from the full claim: the messages that are not `Transmissible`, see
`C14_lost_messages`. -/
theorem C14_roundtrip_partial (ok : List Val → Prop) (c : Codec) (m : Msg) (hok : ok m.marshal)
    (ht : Transmissible m) :
    (Faithful c jsonWire ok → (∀ n ∈ ids m, n ≤ 2 ^ 53) →
      ∃ b, c.serialize m = .ok b ∧ c.deserialize b = .ok (received jsonWire m)) ∧
    (Faithful c cborWire ok → ∃ b, c.serialize m = .ok b ∧ c.deserialize b = .ok (received cborWire m)) ∧
    (Faithful c msgpackWire ok → ∃ b, c.serialize m = .ok b ∧ c.deserialize b = .ok (received msgpackWire m)) := by
  refine ⟨fun hf hid => ?_, fun hf => ?_, fun hf => ?_⟩
  · refine roundtrip (wire_norm jsonLeaf) c ok hf m hok ht fun n hx => C15_json_ids n ?_
    rcases List.mem_cons.1 hx with rfl | hx
    · exact type_le m
    · exact hid n hx
  · exact roundtrip (wire_norm cborLeaf) c ok hf m hok ht fun n _ => cbor_ids n
  · exact roundtrip (wire_norm msgpackLeaf) c ok hf m hok ht fun n _ => msgpack_ids n

/-- Non-vacuity: a codec that is faithful (here: on the encodings of one particular CALL), and a message with everything
in it. -/
example : ∃ (c : Codec) (ok : List Val → Prop),
    let m := newCall 7 (some [(str "timeout", .int .int 5)]) (str "com.p") (some [.bool true, .f64 (.fin false 1 (-1))])
      (some [(str "k", .arr [.nil])])
    ok m.marshal ∧ Transmissible m ∧ Faithful c jsonWire ok ∧ (∀ n ∈ ids m, n ≤ 2 ^ 53) := by
  let m := newCall 7 (some [(str "timeout", .int .int 5)]) (str "com.p") (some [.bool true, .f64 (.fin false 1 (-1))])
      (some [(str "k", .arr [.nil])])
  refine ⟨⟨fun _ => some [1], fun _ => some (m.marshal.map jsonWire)⟩, fun l => l = m.marshal, rfl, ⟨by simp [orEmpty], rfl⟩, ?_, ?_⟩
  · rintro l rfl; exact ⟨_, rfl, rfl⟩
  · simp [newCall, ids]

/-- **C14** (refuted part) With any faithful codec whose format keeps the type code: an ABORT built with kwargs but nil
args, a WELCOME built with nil details and a CHALLENGE built with nil extra cannot be deserialized by the receiver; and a
CALL built with a binary payload arrives without it. -/
theorem C14_lost_messages (norm : Val → Val) (hn : WireNorm norm) (c : Codec) (ok : List Val → Prop)
    (hf : Faithful c norm ok) (hid : ∀ n ≤ 2 ^ 53, asUInt64 (norm (.u64 n)) = some n)
    (reason method : Str) (kw : Dict) (payload : Str) :
    (∀ m, (m = newAbort (some []) reason none (some kw) ∨ m = newWelcome 1 none ∨ m = newChallenge method none) →
      ok m.marshal → ∃ b, c.serialize m = .ok b ∧ c.deserialize b = .err) ∧
    (ok (newCallBinary 1 none reason payload 1).marshal →
      ∃ b, c.serialize (newCallBinary 1 none reason payload 1) = .ok b ∧
        ∃ o, c.deserialize b = .ok (.call 1 (some o) reason none none Bin.none)) := by
  constructor
  · intro m hm hok
    obtain ⟨b, h1, h2⟩ := hf _ hok
    refine ⟨b, by simp [Codec.serialize, h1, Res.ofOption], ?_⟩
    have h3 := hid 3 (by decide)
    have h4 := hid 2 (by decide)
    have h5 := hid 4 (by decide)
    have : toMessage (m.marshal.map norm) = .err := by
      rcases hm with rfl | rfl | rfl
      · simp only [newAbort, orEmpty, Msg.marshal, marshalTailAbort, Val.ofMap, Val.ofSlice,
          List.map_cons, List.map_nil, List.cons_append, List.nil_append, hn.map, hn.str, hn.arrNil, Option.getD_some]
        rw [((C13_dispatch _ _).1 3 .abort h3 (by decide)).1, parse_eq _ _ (by simp [shortLogin])]
        rfl
      · simp only [newWelcome, Msg.marshal, Val.ofMap, List.map_cons, List.map_nil, hn.mapNil]
        rw [((C13_dispatch _ _).1 2 .welcome h4 (by decide)).1, parse_eq _ _ (by simp [shortLogin])]
        simp [shape, Val.asMap?, Res.ofOption]
      · simp only [newChallenge, Msg.marshal, Val.ofMap, List.map_cons, List.map_nil, hn.mapNil, hn.str]
        rw [((C13_dispatch _ _).1 4 .challenge h5 (by decide)).1, parse_eq _ _ (by simp [shortLogin])]
        rfl
    simp only [Codec.deserialize, h2, Res.ofOption, Res.bind_ok, this, Res.bind_err]
  · intro hok
    obtain ⟨b, h1, h2⟩ := hf _ hok
    refine ⟨b, by simp [Codec.serialize, h1, Res.ofOption],
      onDict norm [(str "x_payload_serializer", .u64 1)], ?_⟩
    have h3 := hid 48 (by decide)
    have h4 := hid 1 (by decide)
    have e : (newCallBinary 1 none reason payload 1).marshal.map norm =
        [norm (.u64 48), norm (.u64 1), .map (onDict norm [(str "x_payload_serializer", .u64 1)]), .str reason] := by
      simp [newCallBinary, withSerializer, Msg.marshal, marshalTail, Val.ofMap, hn.map, hn.str, dset, onDict]
    have hs : shape .call ((newCallBinary 1 none reason payload 1).marshal.map norm) =
        some (.call 1 (some (onDict norm [(str "x_payload_serializer", .u64 1)])) reason none none Bin.none) := by
      rw [e]; simp [shape, h4, Val.asMap?, Val.asStr?]
    have hp := ((C11_parse_iff_layout _ _).1 _).2 hs
    have ht := toMessage_of_shape (k := .call) h3 (e ▸ hs)
    rw [← e] at ht
    simp only [Codec.deserialize, h2, Res.ofOption, Res.bind_ok, ht, Msg.kind, hp]

end Wamp
