import Verif.Lemmas.FormatsMsg
import Verif.Props.Cbor
import Verif.Props.MsgPack
/-!
# C124, C125: what the bytes mean to others

C95 and C96 say that what the library writes it also reads.  Here the bytes are compared with the published formats (`Spec/Formats.lean`):
what the library writes is CBOR or MsgPack with the content of the message, and it understands every encoding of a message the format
allows, not only its own.
-/
namespace Wamp.Formats
open Wamp Wamp.Spec

/-! ## Text and numbers -/

/-- **C124** "UTF-8 text" in C95 and C97 is what RFC 3629 says: the encodings of Unicode characters, and nothing else. -/
theorem C124_text (s : Str) : Wamp.Cbor.validUtf8 s = true ↔ Utf8 s := valid_iff s

/-- "ä€😀" is text; an encoded surrogate, an overlong slash and a lone continuation byte are not. -/
example : Wamp.Cbor.validUtf8 [0xc3, 0xa4, 0xe2, 0x82, 0xac, 0xf0, 0x9f, 0x98, 0x80] = true ∧ Wamp.Cbor.validUtf8 [0xed, 0xa0, 0x80] = false ∧
    Wamp.Cbor.validUtf8 [0xc0, 0xaf] = false ∧ Wamp.Cbor.validUtf8 [0x80] = false := by decide

/-- **C124** The floats in C95 and C96 are the values of the binary32 and binary64 formats of IEEE 754. -/
theorem C124_floats (f : GoFloat) :
    (Wamp.Cbor.isFloat 8 23 f = true ↔ ∃ n < 2 ^ 32, single.value n = f) ∧ (Wamp.Cbor.isFloat 11 52 f = true ↔ ∃ n < 2 ^ 64, double.value n = f) :=
  ⟨isSingle_iff f, isDouble_iff f⟩

/-- 1.0, 0.1 (nearest), the smallest positive number, minus infinity. -/
example : double.value 0x3ff0000000000000 = .fin false (2 ^ 52) (-52) ∧
    double.value 0x3fb999999999999a = .fin false 0x1999999999999a (-56) ∧
    double.value 1 = .fin false 1 (-1074) ∧ double.value 0xfff0000000000000 = .inf true := by decide +kernel

/-! ## CBOR -/

/-- **C124** What the library writes for a message is one CBOR item, a list with the content of the message: any reader of CBOR can read
it. -/
theorem C124_written (order : List (Str × Str) → List (Str × Str)) (horder : ∀ l, (order l).Perm l) (m : Msg) (hfit : Wamp.Cbor.Fits m.marshal) :
    ∃ b, (Wamp.Cbor.codec order).serialize m = .ok b ∧ Cbor [.list (contents m.marshal)] b := by
  obtain ⟨b, h1, h2⟩ := cbor_write order horder 32 (.arr m.marshal) hfit
  refine ⟨b, ?_, ?_⟩
  · simp only [Codec.serialize, Wamp.Cbor.codec, h1, Res.ofOption]
  · have := h2 [] [] .done
    rwa [List.append_nil] at this

/-- **C124** The library reads every item RFC 8949 allows for a list (with heads of any length, items of indefinite length and map entries in any order), within its
limits, with the content it has. -/
theorem C124_read (ds : List Data) (b : Str) (h : Cbor [.list ds] b) (hw : Within 131072 32 (.list ds)) :
    Wamp.Cbor.decode b = some (cborVals ds) ∧ contents (cborVals ds) = ds := by
  have := cbor_read h 32 [] (by intro d hd; rw [List.mem_singleton] at hd; subst hd; exact hw)
  rw [List.append_nil, List.length_singleton, Wamp.Cbor.seqOf] at this
  refine ⟨?_, (standsL_cborVals ds).contents⟩
  rw [Wamp.Cbor.decode]
  cases hd : Wamp.Cbor.dec 32 b with
  | none => rw [hd] at this; cases this
  | some p =>
    obtain ⟨v, s⟩ := p
    rw [hd] at this
    simp only [Wamp.Cbor.seqOf, List.map_cons, List.map_nil, Option.some.injEq, Prod.mk.injEq, List.cons.injEq, and_true] at this
    obtain ⟨rfl, rfl⟩ := this
    rw [cborVal]

/-- **C124** Bytes have one meaning: whoever reads them correctly reads the same content. -/
theorem C124_unambiguous (ds ds' : List Data) (b : Str) (h : Cbor [.list ds] b) (hw : Within 131072 32 (.list ds))
    (h' : Cbor [.list ds'] b) (hw' : Within 131072 32 (.list ds')) : ds = ds' := by
  have h1 := C124_read ds b h hw
  have h2 := C124_read ds' b h' hw'
  rw [h1.1] at h2
  rw [← h1.2, ← h2.2]
  injection h2.1 with h3
  rw [h3]

/-- **C124** Messages of other WAMP implementations are understood: whichever of the encodings that RFC 8949 allows for a message a peer
chooses, `Deserialize` makes a message with the same content of it. -/
theorem C124_understood (order : List (Str × Str) → List (Str × Str)) (m : Msg) (ht : Transmissible m) (b : Str)
    (h : Cbor [.list (contents m.marshal)] b) (hw : Within 131072 32 (.list (contents m.marshal))) :
    ∃ m', (Wamp.Cbor.codec order).deserialize b = .ok m' ∧ contents m'.marshal = contents (filled m).marshal := by
  have h1 := C124_read _ b h hw
  obtain ⟨m', h2, h3⟩ := deserialize_stands (Wamp.Cbor.codec order) m ht (ids_within hw) _ (standsL_cborVals _) b h1.1
  refine ⟨m', ?_, h2⟩
  rw [h3, if_neg]
  rw [cborVals_map]
  simp [cborVal_not_i16]

/-- **C124** A message with anything behind it is refused. -/
theorem C124_trailing (order : List (Str × Str) → List (Str × Str)) (ds : List Data) (b : Str) (h : Cbor [.list ds] b)
    (hw : Within 131072 32 (.list ds)) (junk : Str) (hj : junk ≠ []) : (Wamp.Cbor.codec order).deserialize (b ++ junk) = .err := by
  have := cbor_read h 32 junk (by intro d hd; rw [List.mem_singleton] at hd; subst hd; exact hw)
  rw [List.length_singleton, Wamp.Cbor.seqOf] at this
  have hd : Wamp.Cbor.decode (b ++ junk) = none := by
    rw [Wamp.Cbor.decode]
    cases hd : Wamp.Cbor.dec 32 (b ++ junk) with
    | none => rfl
    | some p =>
      obtain ⟨v, s⟩ := p
      rw [hd] at this
      simp only [Wamp.Cbor.seqOf, List.map_cons, List.map_nil, Option.some.injEq, Prod.mk.injEq, List.cons.injEq, and_true] at this
      obtain ⟨rfl, rfl⟩ := this
      rw [cborVal]
      cases s with
      | nil => exact absurd rfl hj
      | cons c s => rfl
  simp only [Codec.deserialize, Wamp.Cbor.codec, hd, Res.ofOption]
  rfl

/-- SUBSCRIBE 7 to "ab" with options, as another implementation might write it: every head longer than necessary, the entries of the map in another
order than the library's. -/
def foreign : Str :=
  [0x98, 4, 0x18, 32, 0x19, 0, 7, 0xba, 0, 0, 0, 2, 0x78, 1, 98, 0xf9, 0x3c, 0x00, 0x61, 97, 0x38, 1, 0x7b, 0, 0, 0, 0, 0, 0, 0, 2, 97, 98]

/-- The message. -/
def foreignMsg : Msg := newSubscribe 7 (some [(str "a", .int .int (-2)), (str "b", .f64 (.fin false 1024 (-10)))]) (str "ab")

example : Cbor [.list (contents foreignMsg.marshal)] foreign ∧ Within 131072 32 (.list (contents foreignMsg.marshal)) := by
  have e : contents foreignMsg.marshal = [.int ((32 : Nat) : Int), .int ((7 : Nat) : Int), .dict [(str "a", .int (-1 - ((1 : Nat) : Int))), (str "b", .float (half.value (bigEndian [0x3c, 0])))],
      .text (str "ab")] := by
    have h1 : half.value (bigEndian [0x3c, 0]) = .fin false 1024 (-10) := by decide +kernel
    rw [h1]
    rfl
  rw [e]
  constructor
  · exact .list (h := [0x98, 4]) (b := []) (.large 0 [4] (by decide) rfl)
      (.unsigned (h := [0x18, 32]) (.large 0 [32] (by decide) rfl)
      (.unsigned (h := [0x19, 0, 7]) (.large 1 [0, 7] (by decide) rfl)
      (.dict (d' := [(str "b", .float (half.value (bigEndian [0x3c, 0]))), (str "a", .int (-1 - ((1 : Nat) : Int)))]) (h := [0xba, 0, 0, 0, 2]) (a := [0x78, 1, 98, 0xf9, 0x3c, 0x00, 0x61, 97, 0x38, 1]) (.large 2 [0, 0, 0, 2] (by decide) rfl) (.swap ..)
        (.text (s := str "b") (h := [0x78, 1]) (.large 0 [1] (by decide) rfl) ⟨['b'], by decide⟩
        (.half (s := [0x3c, 0]) rfl
        (.text (s := str "a") (h := [0x61]) (.small 1 (by decide)) ⟨['a'], by decide⟩
        (.negative (n := 1) (h := [0x38, 1]) (.large 0 [1] (by decide) rfl) .done))))
      (.text (s := str "ab") (h := [0x7b, 0, 0, 0, 0, 0, 0, 0, 2]) (.large 3 [0, 0, 0, 0, 0, 0, 0, 2] (by decide) rfl) ⟨['a', 'b'], by decide⟩ .done)))) .done
  · simp [Within, WithinL, WithinD, Ordered]
    decide

/-- It is understood. -/
example : (match (Wamp.Cbor.codec id).deserialize foreign with
    | .ok (.subscribe 7 (some [(a, .int .i64 (-2)), (b, .f64 (.fin false 1024 (-10)))]) t) => a == str "a" && b == str "b" && t == str "ab"
    | _ => false) = true := by decide +kernel

/-- The same with a list, a map and a text of indefinite length, the text in two chunks. -/
def foreignOpen : Str :=
  [0x9f, 0x18, 32, 0x19, 0, 7, 0xbf, 0x78, 1, 98, 0xf9, 0x3c, 0x00, 0x61, 97, 0x38, 1, 0xff, 0x7f, 0x61, 97, 0x61, 98, 0xff, 0xff]

example : Cbor [.list (contents foreignMsg.marshal)] foreignOpen := by
  have e : contents foreignMsg.marshal = [.int ((32 : Nat) : Int), .int ((7 : Nat) : Int), .dict [(str "a", .int (-1 - ((1 : Nat) : Int))), (str "b", .float (half.value (bigEndian [0x3c, 0])))],
      .text ([([0x61], [97]), ([0x61], [98])].flatMap fun c : Str × Str => c.2)] := by
    have h1 : half.value (bigEndian [0x3c, 0]) = .fin false 1024 (-10) := by decide +kernel
    rw [h1]
    rfl
  rw [e]
  exact .openList (b := [])
      (.unsigned (h := [0x18, 32]) (.large 0 [32] (by decide) rfl)
      (.unsigned (h := [0x19, 0, 7]) (.large 1 [0, 7] (by decide) rfl)
      (.openDict (d' := [(str "b", .float (half.value (bigEndian [0x3c, 0]))), (str "a", .int (-1 - ((1 : Nat) : Int)))]) (a := [0x78, 1, 98, 0xf9, 0x3c, 0x00, 0x61, 97, 0x38, 1]) (.swap ..)
        (.text (s := str "b") (h := [0x78, 1]) (.large 0 [1] (by decide) rfl) ⟨['b'], by decide⟩
        (.half (s := [0x3c, 0]) rfl
        (.text (s := str "a") (h := [0x61]) (.small 1 (by decide)) ⟨['a'], by decide⟩
        (.negative (n := 1) (h := [0x38, 1]) (.large 0 [1] (by decide) rfl) .done))))
      (.textChunks (by
        intro c hc
        rcases List.mem_cons.1 hc with rfl | hc
        · exact ⟨.small 1 (by decide), ['a'], by decide⟩
        · obtain rfl := List.mem_singleton.1 hc
          exact ⟨.small 1 (by decide), ['b'], by decide⟩) .done)))) .done

/-! ## MsgPack -/

/-- **C125** What the library writes for a message is one MsgPack object, a list with the content of the message. -/
theorem C125_written (order : List (Str × Str) → List (Str × Str)) (horder : ∀ l, (order l).Perm l) (m : Msg) (hfit : MsgPack.Fits m.marshal) :
    ∃ b, (MsgPack.codec order).serialize m = .ok b ∧ Formats.MsgPack [.list (contents m.marshal)] b := by
  obtain ⟨b, h1, h2⟩ := msgpack_write order horder (.arr m.marshal) hfit
  refine ⟨b, ?_, ?_⟩
  · simp only [Codec.serialize, MsgPack.codec, h1, Res.ofOption]
  · have := h2 [] [] .done
    rwa [List.append_nil] at this

/-- **C125** The library reads every object the specification allows for a list with the content it has; what follows is ignored. -/
theorem C125_read (ds : List Data) (b : Str) (h : Formats.MsgPack [.list ds] b) {count levels : Nat} (hw : Within count levels (.list ds)) (rest : Str) :
    ∃ l, MsgPack.decode (b ++ rest) = some l ∧ contents l = ds := by
  obtain ⟨vs, h1, h2⟩ := msgpack_read h (b ++ rest).length (by rw [List.length_append]; omega) rest count levels
    (by intro d hd; rw [List.mem_singleton] at hd; subst hd; exact hw)
  rw [standsL_cons] at h1
  obtain ⟨v, r, rfl, h3, h4⟩ := h1
  obtain ⟨a, rfl, h5, _⟩ := (stands_list ..).1 h3
  refine ⟨a, ?_, h5⟩
  rw [List.length_singleton, Wamp.Cbor.seqOf] at h2
  rw [MsgPack.decode]
  cases hd : MsgPack.dec (b ++ rest).length (b ++ rest) with
  | none => rw [hd] at h2; cases h2
  | some p =>
    obtain ⟨v, s⟩ := p
    rw [hd] at h2
    simp only [Wamp.Cbor.seqOf, Option.some.injEq, Prod.mk.injEq, List.cons.injEq] at h2
    obtain ⟨⟨rfl, _⟩, _⟩ := h2
    rfl

/-- **C125** Bytes have one meaning. -/
theorem C125_unambiguous (ds ds' : List Data) (b : Str) (h : Formats.MsgPack [.list ds] b) (h' : Formats.MsgPack [.list ds'] b)
    {count levels count' levels' : Nat} (hw : Within count levels (.list ds)) (hw' : Within count' levels' (.list ds')) : ds = ds' := by
  obtain ⟨l, h1, h2⟩ := C125_read ds b h hw []
  obtain ⟨l', h3, h4⟩ := C125_read ds' b h' hw' []
  rw [h1] at h3
  injection h3 with h3
  rw [← h2, ← h4, h3]

theorem flatMap_length {items : List (Data × Str)} {p : Data × Str} (h : p ∈ items) : p.2.length ≤ (items.flatMap Prod.snd).length := by
  induction items with
  | nil => cases h
  | cons q items ih =>
    rw [List.flatMap_cons, List.length_append]
    rcases List.mem_cons.1 h with rfl | h
    · omega
    · have := ih h
      omega

/-- **C125** (partial) A peer encodes a message as a list of objects, in any of the ways the MsgPack specification allows; `items` are the
elements with their bytes.  `Deserialize` understands it, with the same content, exactly when none of the elements of the list itself is written with
the code of `int 16` (0xd1); otherwise it reports an error.  Missing: messages with identifiers written that way, which the
specification allows. -/
theorem C125_understood_partial (order : List (Str × Str) → List (Str × Str)) (m : Msg) (ht : Transmissible m)
    (items : List (Data × Str)) (hc : items.map Prod.fst = contents m.marshal) (hb : ∀ p ∈ items, Formats.MsgPack [p.1] p.2)
    (head : Str) (hh : ListLen items.length head) {count levels : Nat} (hw : Within count levels (.list (contents m.marshal))) (rest : Str) :
    ∃ m', contents m'.marshal = contents (filled m).marshal ∧
      (MsgPack.codec order).deserialize (head ++ items.flatMap Prod.snd ++ rest) =
        if items.any fun p => p.2.head? == some 0xd1 then .err else .ok m' := by
  obtain ⟨c, t, k, len, h1, h2, h3⟩ := listLen_read hh
  subst h1
  have hlen : ((c :: t) ++ items.flatMap Prod.snd ++ rest).length = (t.length + (items.flatMap Prod.snd).length + rest.length) + 1 := by
    simp only [List.length_append, List.length_cons]; omega
  obtain ⟨vs, h4, h5, h6⟩ := msgpack_items (t.length + (items.flatMap Prod.snd).length + rest.length) items rest count (levels - 1) hb
    (fun p hp => (withinL_iff ..).1 hw.2.2 _ (by rw [← hc]; exact List.mem_map_of_mem hp))
    (fun p hp => by
      have := flatMap_length hp
      omega)
  have hd : MsgPack.decode ((c :: t) ++ items.flatMap Prod.snd ++ rest) = some vs := by
    rw [MsgPack.decode, hlen, List.append_assoc, List.cons_append, MsgPack.dec.eq_def]
    simp only [h2, h3, h5]
  obtain ⟨m', h7, h8⟩ := deserialize_stands (MsgPack.codec order) m ht (ids_within hw) vs (by rw [← hc]; exact h4) _ hd
  exact ⟨m', h7, by rw [h8, h6]⟩

/-- **C125** Every encoding of a list has the form used there. -/
theorem C125_elements (ds : List Data) (b : Str) (h : Formats.MsgPack [.list ds] b) :
    ∃ (head : Str) (items : List (Data × Str)), items.map Prod.fst = ds ∧ (∀ p ∈ items, Formats.MsgPack [p.1] p.2) ∧ ListLen items.length head ∧
      b = head ++ items.flatMap Prod.snd := by
  cases h with
  | list hh hl hn =>
    cases hn
    obtain ⟨items, rfl, rfl, h3⟩ := msgpack_split hl
    rw [List.length_map] at hh
    exact ⟨_, items, rfl, h3, hh, by rw [List.append_nil]⟩

/-- **C125** (refuted) SUBSCRIBED with subscription 300 in two encodings the specification allows; the one with `int 16` is refused. -/
theorem C125_int16_refused (order : List (Str × Str) → List (Str × Str)) :
    Formats.MsgPack [.list (contents (newSubscribed 1 300).marshal)] [0x93, 0x21, 0x01, 0xcd, 0x01, 0x2c] ∧
    Formats.MsgPack [.list (contents (newSubscribed 1 300).marshal)] [0x93, 0x21, 0x01, 0xd1, 0x01, 0x2c] ∧
    (MsgPack.codec order).deserialize [0x93, 0x21, 0x01, 0xcd, 0x01, 0x2c] = .ok (newSubscribed 1 300) ∧
    (MsgPack.codec order).deserialize [0x93, 0x21, 0x01, 0xd1, 0x01, 0x2c] = .err := by
  have e : contents (newSubscribed 1 300).marshal = [.int ((33 : Nat) : Int), .int ((1 : Nat) : Int), .int 300] := rfl
  have e1 : (300 : Int) = (bigEndian [0x01, 0x2c] : Nat) := by decide
  have e2 : (300 : Int) = twos [0x01, 0x2c] := by decide
  rw [e]
  refine ⟨?_, ?_, rfl, rfl⟩
  · rw [e1]
    exact .list (h := [0x93]) (a := [0x21, 0x01, 0xcd, 0x01, 0x2c]) (b := []) (.fix 3 (by decide))
      (.posfix (by decide) (.posfix (by decide) (.unsigned (c := 0xcd) (s := [0x01, 0x2c]) (by decide) .done))) .done
  · rw [e2]
    exact .list (h := [0x93]) (a := [0x21, 0x01, 0xd1, 0x01, 0x2c]) (b := []) (.fix 3 (by decide))
      (.posfix (by decide) (.posfix (by decide) (.signed (c := 0xd1) (s := [0x01, 0x2c]) (by decide) .done))) .done

end Wamp.Formats
