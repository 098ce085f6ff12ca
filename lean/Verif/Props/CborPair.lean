import Verif.Props.Cbor
/-!
# C150: `EncodeCBOR`, `DecodeCBOR` and the payload functions for CBOR
-/
namespace Wamp.Cbor
open Wamp Wamp.Spec

private theorem fits_nil {a : List Val} {k : Dict} (h : Fits [.arr a, .map k]) :
    Fits [.arrNil, .map k] ∧ Fits [.arr a, .mapNil] ∧ Fits [.arrNil, .mapNil] ∧ Fits [.arr a] := by
  simp only [Fits, fits, fitsL, Bool.and_eq_true, decide_eq_true_eq, List.length_cons, List.length_nil] at h ⊢
  refine ⟨⟨h.1, trivial, h.2.2.1, trivial⟩, ⟨h.1, h.2.1, trivial, trivial⟩, ⟨h.1, trivial, trivial, trivial⟩, ⟨by omega, by omega⟩, h.2.1, trivial⟩

/-- **C150** (partial) What `EncodeCBOR` makes of a list of arguments and a map of keyword arguments, `DecodeCBOR` and
`DeserializePayload` both read back. -/
theorem C150_pair_partial (order : List (Str × Str) → List (Str × Str)) (horder : ∀ l, (order l).Perm l) (cs : Codecs)
    (hc : cs.cbor = codec order) (a : List Val) (k : Dict) (hfit : Fits [.arr a, .map k]) :
    ∃ b, encodeCBOR cs.cbor (some a) (some k) = .ok b ∧
      decodeCBOR cs.cbor b = .ok (some (a.map cborWire), some (onDict cborWire k)) ∧
      deserializePayload cs 3 b = .ok (some (a.map cborWire), some (onDict cborWire k)) := by
  have hn := wire_norm cborLeaf
  have hf := C95_faithful order horder
  obtain ⟨b, h1, h2⟩ := hf _ hfit
  refine ⟨b, by rw [hc]; simp [encodeCBOR, Val.ofSlice, Val.ofMap, h1, Res.ofOption], ?_, ?_⟩
  · rw [hc]; simp [decodeCBOR, h2, Res.ofOption, item, Res.orPanic, cborWire, hn.arr, hn.map, Val.asSlice?, Val.asMap?, onDict]
  · rw [deserializePayload_codec (c := codec order) (by rw [← hc]; rfl) b]
    simp [decodePayload, payloadDecode, h2, Res.ofOption, cborWire, hn.arr, hn.map, Val.asSlice?, Val.asMap?, onDict]

/-- **C150** (refuted) But nil arguments or nil keyword arguments, which `EncodeCBOR` writes without complaint, `DecodeCBOR` refuses. -/
theorem C150_nil_refused (order : List (Str × Str) → List (Str × Str)) (horder : ∀ l, (order l).Perm l)
    (args : GoSlice) (kwargs : GoMap) (hnil : args = none ∨ kwargs = none)
    (hfit : Fits [.arr (args.getD []), .map (kwargs.getD [])]) :
    ∃ b, encodeCBOR (codec order) args kwargs = .ok b ∧ decodeCBOR (codec order) b = .err := by
  have hn := wire_norm cborLeaf
  have hf := C95_faithful order horder
  obtain ⟨f1, f2, f3, -⟩ := fits_nil hfit
  rcases args with _ | a <;> rcases kwargs with _ | k <;> simp only [Option.getD_some, Option.getD_none] at f1 f2
  · obtain ⟨b, h1, h2⟩ := hf _ f3
    exact ⟨b, by simp [encodeCBOR, Val.ofSlice, Val.ofMap, h1, Res.ofOption],
      by simp [decodeCBOR, h2, Res.ofOption, item, Res.orPanic, cborWire, hn.arrNil, Val.asSlice?]⟩
  · obtain ⟨b, h1, h2⟩ := hf _ f1
    exact ⟨b, by simp [encodeCBOR, Val.ofSlice, Val.ofMap, h1, Res.ofOption],
      by simp [decodeCBOR, h2, Res.ofOption, item, Res.orPanic, cborWire, hn.arrNil, Val.asSlice?]⟩
  · obtain ⟨b, h1, h2⟩ := hf _ f2
    exact ⟨b, by simp [encodeCBOR, Val.ofSlice, Val.ofMap, h1, Res.ofOption],
      by simp [decodeCBOR, h2, Res.ofOption, item, Res.orPanic, cborWire, hn.arr, hn.mapNil, Val.asSlice?, Val.asMap?]⟩
  · simp at hnil

/-- **C150** (refuted) And what `SerializePayload` makes of arguments alone crashes `DecodeCBOR`; with keyword arguments it is read. -/
theorem C150_payload_crashes (order : List (Str × Str) → List (Str × Str)) (horder : ∀ l, (order l).Perm l) (cs : Codecs)
    (hc : cs.cbor = codec order) (args : GoSlice) (kwargs : GoMap) (hne : ¬ (args.getD [] = [] ∧ kwargs.getD [] = []))
    (hfit : Fits [.arr (args.getD []), .map (kwargs.getD [])]) :
    ∃ b, serializePayload cs 3 args kwargs = .ok b ∧
      decodeCBOR cs.cbor b =
        if kwargs.getD [] = [] then .panic else .ok (some ((args.getD []).map cborWire), some (onDict cborWire (kwargs.getD []))) := by
  have hn := wire_norm cborLeaf
  have hf := C95_faithful order horder
  rw [serializePayload_codec (c := codec order) (by rw [← hc]; rfl), hc]
  have key : ∃ l, prepareForEncode args kwargs = l ∧ l ≠ [] ∧
      (l = [.arr (args.getD [])] ∧ kwargs.getD [] = [] ∨
       l = [.arr (args.getD []), .map (kwargs.getD [])] ∧ kwargs.getD [] ≠ []) := by
    rcases args with _ | ⟨_ | ⟨x, a⟩⟩ <;> rcases kwargs with _ | ⟨_ | ⟨y, k⟩⟩ <;>
      simp [prepareForEncode, Val.ofSlice, Val.ofMap] at hne ⊢
  obtain ⟨l, hl, hl0, hcase⟩ := key
  have hlen : ¬ l.length = 0 := by simpa using hl0
  simp only [encodePayload, hl, if_neg hlen]
  have hokl : Fits l := by
    rcases hcase with ⟨rfl, -⟩ | ⟨rfl, -⟩
    · exact (fits_nil hfit).2.2.2
    · exact hfit
  obtain ⟨b, h1, h2⟩ := hf l hokl
  refine ⟨b, by simp [h1, Res.ofOption], ?_⟩
  rcases hcase with ⟨rfl, hk⟩ | ⟨rfl, hk⟩
  · simp [decodeCBOR, h2, Res.ofOption, item, Res.orPanic, cborWire, hn.arr, Val.asSlice?, hk]
  · simp [decodeCBOR, h2, Res.ofOption, item, Res.orPanic, cborWire, hn.arr, hn.map, Val.asSlice?, Val.asMap?, onDict, if_neg hk]

/-- Content that meets the hypotheses: one argument, with or without a keyword argument. -/
example : Fits [.arr [.str (str "hi"), .u64 7], .map [(str "k", .bool true)]] ∧ Fits [.arr [.u64 7], .map []] := by
  constructor <;> (unfold Fits; decide +kernel)

end Wamp.Cbor
