import Verif.Lemmas.FormatsJson
import Verif.Lemmas.FormatsMsg
import Verif.Props.Json
/-!
# C126: JSON as RFC 8259 has it

C97 says that what the library writes it also reads.  Here the bytes are compared with the published format (`Spec/FormatsJson.lean`).
-/
namespace Wamp.Formats
open Wamp Wamp.Spec

/-- **C126** What the library writes for a message is a JSON text with the content of the message, byte strings in base64, floats as numbers that
stand for them. -/
theorem C126_written (m : Msg) (hfit : Json.Fits m.marshal) :
    ∃ b, Json.codec.serialize m = .ok b ∧ Formats.Json (.value (jsonContent (.arr m.marshal))) b := by
  obtain ⟨b, h1, h2⟩ := json_write 10000 (.arr m.marshal) hfit
  refine ⟨b, ?_, h2⟩
  simp only [Codec.serialize, Json.codec, h1, Res.ofOption]

/-- **C126** `Base64` as it is used for byte strings and signatures is that of RFC 4648. -/
theorem C126_base64 (b : Str) : b64Encode b = base64 b := (base64_eq b).symm

example : base64 (str "Many hands") = str "TWFueSBoYW5kcw==" ∧ base64 [0xfb, 0xff] = str "+/8=" := by decide +kernel

/-- **C126** The numbers the library accepts are those of the grammar of RFC 8259. -/
theorem C126_numbers (s : Str) : Json.isNumber s = true ↔ Number s := isNumber_iff s

/-- **C126** The library reads every JSON text for a list, with any white space, escapes and order of members; numbers become `float64`. -/
theorem C126_read (ds : List Data) (b : Str) (h : Formats.Json (.value (.list ds)) b) {count : Nat}
    (hw : Within count 10000 (.list ds)) (before after : Str) (hb : Space before) (ha : Space after) :
    Json.decode (before ++ b ++ after) = some (jsonVals ds) := by
  obtain ⟨-, h1⟩ := json_read h
  have h2 := h1 count 10000 hw after (.inr ⟨ds, rfl⟩)
  have h3 : Json.skip after = [] := by
    have := skip_space ha []
    rwa [List.append_nil] at this
  rw [Json.decode, List.append_assoc, dec_space 10000 hb, h2]
  simp only [jsonVal, h3, if_true]

theorem skip_nil {s : Str} (h : Json.skip s = []) : ∀ c ∈ s, Json.isSpace c = true := by
  induction s with
  | nil => intro c hc; cases hc
  | cons a s ih =>
    rw [Json.skip, List.dropWhile_cons] at h
    split at h
    · rename_i ha
      intro c hc
      rcases List.mem_cons.1 hc with rfl | hc
      · exact ha
      · exact ih h c hc
    · cases h

/-- **C126** A text with anything but white space behind it is refused. -/
theorem C126_trailing (ds : List Data) (b : Str) (h : Formats.Json (.value (.list ds)) b) {count : Nat}
    (hw : Within count 10000 (.list ds)) (junk : Str) (hj : ¬ Space junk) : Json.codec.deserialize (b ++ junk) = .err := by
  obtain ⟨-, h1⟩ := json_read h
  have h2 := h1 count 10000 hw junk (.inr ⟨ds, rfl⟩)
  have h3 : Json.skip junk ≠ [] := by
    intro h
    apply hj
    intro c hc
    have := skip_nil h c hc
    simp only [Json.isSpace, Bool.or_eq_true, decide_eq_true_eq] at this
    rcases this with (h | h) | (h | h)
    · exact .inl h
    · exact .inr (.inl h)
    · exact .inr (.inr (.inl h))
    · exact .inr (.inr (.inr h))
  have hd : Json.decode (b ++ junk) = none := by
    rw [Json.decode, h2]
    simp only [jsonVal, h3, if_false]
  simp only [Codec.deserialize, Json.codec, hd, Res.ofOption]
  rfl

/-- **C126** A text has one meaning, apart from the precision of numbers. -/
theorem C126_unambiguous (ds ds' : List Data) (b : Str) (h : Formats.Json (.value (.list ds)) b)
    (h' : Formats.Json (.value (.list ds')) b) {count count' : Nat} (hw : Within count 10000 (.list ds)) (hw' : Within count' 10000 (.list ds')) :
    jsonVals ds = jsonVals ds' := by
  have h0 : Space [] := by intro c hc; cases hc
  have h1 := C126_read ds b h hw [] [] h0 h0
  rw [C126_read ds' b h' hw' [] [] h0 h0] at h1
  injection h1 with h1
  exact h1.symm

/-- What a reader of JSON makes of a Go value that was written by somebody. -/
def viaJson (v : Val) : Val := jsonVal (asJson (content v))

theorem viaJson_norm : WireNorm viaJson where
  str _ := rfl
  arr l := by simp only [viaJson, content, asJson, jsonVal, contents_map, asJsonL_map, jsonVals_map, List.map_map]; rfl
  map d := by simp only [viaJson, content, asJson, jsonVal, entries_map, asJsonD_map, jsonEntries_map, List.map_map]; rfl
  strs l := by
    simp only [viaJson, content, asJson, jsonVal, asJsonL_map, jsonVals_map, List.map_map]; rfl
  strsNil := rfl
  arrNil := rfl
  mapNil := rfl

theorem viaJson_ids (n : Nat) (h : n ≤ 2 ^ 53) : asUInt64 (viaJson (.u64 n)) = some n := by
  simp only [viaJson, content, asJson, jsonVal, asUInt64, f64OfInt_nat, f64OfNat_value n h]

/-- **C126** Messages of other WAMP implementations are understood: whichever of the JSON texts for a message a peer chooses, `Deserialize` makes
the same message of it (numbers in options, args and kwargs as `float64`), if its IDs are WAMP IDs. -/
theorem C126_understood (m : Msg) (ht : Transmissible m) (hid : ∀ n ∈ ids m, n ≤ 2 ^ 53) (b : Str)
    (h : Formats.Json (.value (asJson (.list (contents m.marshal)))) b) {count : Nat}
    (hw : Within count 10000 (asJson (.list (contents m.marshal)))) (before after : Str) (hb : Space before) (ha : Space after) :
    Json.codec.deserialize (before ++ b ++ after) = .ok (received viaJson m) := by
  rw [asJson] at h hw
  have h1 := C126_read _ b h hw before after hb ha
  have hf : Faithful { enc := fun _ => some (before ++ b ++ after), dec := Json.decode } viaJson (fun l => l = m.marshal) := by
    rintro l rfl
    refine ⟨_, rfl, ?_⟩
    show Json.decode _ = _
    rw [h1, asJsonL_map, jsonVals_map, contents_map, List.map_map, List.map_map]
    rfl
  obtain ⟨b', h2, h3⟩ := roundtrip viaJson_norm _ _ hf m rfl ht (by
    intro n hn
    refine viaJson_ids n ?_
    rcases List.mem_cons.1 hn with rfl | hn
    · exact type_le m
    · exact hid n hn)
  have : b' = before ++ b ++ after := by
    simp only [Codec.serialize, Res.ofOption, Res.ok.injEq] at h2
    exact h2.symm
  subst this
  exact h3

/-- CALL 7 of "é😀" with arguments, as another implementation might write it: white space, escapes in upper and lower case, a surrogate pair, members in
another order, a number with an exponent. -/
def foreignJson : Str :=
  str "[ 48,7 ,{ \"b\\u005C\" : true,\n\"a\":null},\"\\u00E9\\ud83d\\uDe00\" , [1E2, \"\\/\" ] ]"

/-- The message. -/
def foreignCall : Msg := .call 7 (some [(str "a", .nil), (str "b\\", .bool true)]) [0xc3, 0xa9, 0xf0, 0x9f, 0x98, 0x80]
  (some [.f64 (.fin false 7036874417766400 (-46)), .str (str "/")]) none Bin.none

theorem literal_of {cs : List Char} {s t b : Str} (h : Chars cs s) (h1 : t = utf8Of cs) (h2 : b = 0x22 :: (s ++ [0x22])) : Literal t b :=
  ⟨cs, s, h1, h, h2⟩

theorem json_of {p : Part} {s b : Str} (h : Formats.Json p s) (hb : s = b) : Formats.Json p b := hb ▸ h

example : Formats.Json (.value (asJson (.list (contents foreignCall.marshal)))) foreignJson ∧
    Within 9 10000 (asJson (.list (contents foreignCall.marshal))) ∧ Transmissible foreignCall ∧ ∀ n ∈ ids foreignCall, n ≤ 2 ^ 53 := by
  have e : asJson (.list (contents foreignCall.marshal)) = .list [.int 48, .int 7, .dict [(str "a", .null), (str "b\\", .bool true)],
      .text [0xc3, 0xa9, 0xf0, 0x9f, 0x98, 0x80], .list [.float (.fin false 7036874417766400 (-46)), .text (str "/")]] := rfl
  rw [e]
  refine ⟨?_, by simp [Within, WithinL, WithinD, Ordered]; decide, by simp [foreignCall, Transmissible], by decide⟩
  have k1 : Literal (str "b\\") (str "\"b\\u005C\"") :=
    literal_of (cs := ['b', '\\']) (.plain (by decide) (by decide) (by decide) (.hex (h := str "005C")
      ⟨0, 0, 5, 12, 0x30, 0x30, 0x35, 0x43, by decide, by decide, .inl (by decide), .inl (by decide), .inl (by decide), .inr (by decide)⟩ .done)) (by decide) (by decide)
  have k2 : Literal (str "a") (str "\"a\"") := literal_of (cs := ['a']) (.plain (by decide) (by decide) (by decide) .done) (by decide) (by decide)
  have k3 : Literal [0xc3, 0xa9, 0xf0, 0x9f, 0x98, 0x80] (str "\"\\u00E9\\ud83d\\uDe00\"") :=
    literal_of (cs := ['é', '😀']) (.hex (h := str "00E9")
      ⟨0, 0, 14, 9, 0x30, 0x30, 0x45, 0x39, by decide, by decide, .inl (by decide), .inl (by decide), .inr (by decide), .inl (by decide)⟩
      (.pair (h := str "d83d") (l := str "De00") (by decide)
        ⟨13, 8, 3, 13, 0x64, 0x38, 0x33, 0x64, by decide, by decide, .inr (by decide), .inl (by decide), .inl (by decide), .inr (by decide)⟩
        ⟨13, 14, 0, 0, 0x44, 0x65, 0x30, 0x30, by decide, by decide, .inr (by decide), .inr (by decide), .inl (by decide), .inl (by decide)⟩ .done)) (by decide) (by decide)
  have k4 : Literal (str "/") (str "\"\\/\"") := literal_of (cs := ['/']) (.short (e := 0x2f) (by decide) .done) (by decide) (by decide)
  have k5 : Number (str "1E2") := ⟨false, str "1", [], 2, [], str "E2", by decide, ⟨⟨by decide, by decide⟩, by decide⟩, .inl ⟨rfl, rfl⟩,
    .inr ⟨0x45, [], str "2", .inr rfl, ⟨by decide, by decide⟩, by decide, .inl ⟨.inl rfl, by decide⟩⟩⟩
  have k6 : Stands64 (str "1E2") (.fin false 7036874417766400 (-46)) := (number_stands k5).1 (by decide +kernel)
  have blank : Space (str " ") := by unfold Space; decide
  have line : Space (str "\n") := by unfold Space; decide
  have n48 : Formats.Json (.value (.int 48)) (str "48") := json_of (.int (Json.word_small (by decide))) (by rw [integerOf_eq]; decide +kernel)
  have n7 : Formats.Json (.value (.int 7)) (str "7") := json_of (.int (Json.word_small (by decide))) (by rw [integerOf_eq]; decide +kernel)
  exact json_of (.list (.more blank n48 space_nil (.more space_nil n7 blank
    (.more space_nil (.dict (d' := [(str "b\\", .bool true), (str "a", .null)]) (.swap ..) (.member blank k1 blank blank .yes space_nil (.last line k2 space_nil space_nil .null space_nil))) space_nil
    (.more space_nil (.text k3) blank (.one blank (.list (.more space_nil (.float k5 k6) space_nil (.one blank (.text k4) blank))) blank)))))) (by decide)

/-- It is understood. -/
example : (match Json.codec.deserialize foreignJson with
    | .ok (.call 7 (some [(a, .nil), (b, .bool true)]) p (some [.f64 (.fin false 7036874417766400 (-46)), .str x]) none _) =>
      a == str "a" && b == str "b\\" && p == [0xc3, 0xa9, 0xf0, 0x9f, 0x98, 0x80] && x == str "/"
    | _ => false) = true := by decide +kernel

/-- A message to which `C126_written` applies. -/
example : Json.Fits (newPublish 7 (some [(str "k", .bytes [1, 2])]) (str "a") (some [.int .int (-3), .str [0xe2, 0x82, 0xac]]) none).marshal := by
  unfold Json.Fits; decide +kernel

end Wamp.Formats
