import Verif.Props.Json
import Verif.Props.FormatsJson
/-!
# Numbers in JSON

What becomes of a number that an application hands to `SerializePayload(JSONSerializerID, …)`, and of any number that arrives.
`Spec.Nearest64`, `Spec.Nearest32` and `Spec.Shortest` say what rounding is; `Number`, `Denotes` and `Stands64` are the grammar of RFC 8259.
-/
namespace Wamp.Json
open Wamp Wamp.Spec Wamp.Formats

/-- A payload with one number as the only argument. -/
def alone (s : Str) : Str := str "[[" ++ s ++ str "]]"

theorem alone_eq (s : Str) : alone s = 0x5b :: (0x5b :: (s ++ [0x5d]) ++ [0x5d]) := by
  simp [alone, str]

theorem number_alone {s : Str} {f : GoFloat} (h1 : isNumber s = true) (h2 : number s = some f) : decode (alone s) = some [.arr [.f64 f]] := by
  have k1 := reads_number 9998 s f h1 h2
  have k2 := reads_list 9998 [(s, .f64 f)] (by intro t ht; rw [List.mem_singleton.1 ht]; exact k1)
  have k3 := dec_list 9999 [(0x5b :: (s ++ [0x5d]), .arr [.f64 f])] (by intro t ht; rw [List.mem_singleton.1 ht]; exact k2) []
  rw [decode, alone_eq]
  rw [List.append_nil] at k3
  simp only [List.map_cons, List.map_nil, commas] at k3
  rw [k3]
  rfl

theorem number_refused {s : Str} (h : isNumber s = true) (h2 : number s = none) : decode (alone s) = none := by
  obtain ⟨h1, h3⟩ := number_all h
  cases hs : s with
  | nil => exact absurd hs h3
  | cons c r =>
    have hc : numChar c = true := by rw [hs, List.all_cons, Bool.and_eq_true] at h1; exact h1.1
    obtain ⟨n1, n2, n3, n4⟩ := numChar_start hc
    have k1 : dec 9998 (c :: (r ++ [0x5d] ++ [0x5d])) = none := by
      obtain ⟨g1, g2⟩ := takeWhile_all h1 ([0x5d] ++ [0x5d]) (by intro c r h; injection h with h; rw [← h]; decide)
      rw [hs] at g1 h h2
      rw [List.cons_append, ← List.append_assoc] at g1
      rw [dec.eq_def, skip_start n4]
      simp only [n1, n2, n3, hc, if_false, if_true, g1, h, h2]
    have k2 : dec 9999 (0x5b :: (c :: (r ++ [0x5d] ++ [0x5d]))) = none := by
      rw [dec.eq_def, skip_start (by decide)]
      simp only [show ¬ (0x5b : UInt8) = 0x22 by decide, if_false, if_true]
      rw [items, skip_start n4]
      simp only [(start_of n4).2, if_false]
      rw [List.length_cons, listOf, k1]
    have k3 : dec 10000 (0x5b :: 0x5b :: (c :: (r ++ [0x5d] ++ [0x5d]))) = none := by
      rw [dec.eq_def, skip_start (by decide)]
      simp only [show ¬ (0x5b : UInt8) = 0x22 by decide, if_false, if_true]
      rw [items, skip_start (by decide)]
      simp only [show ¬ (0x5b : UInt8) = 0x5d by decide, if_false]
      rw [List.length_cons, listOf, k2]
    rw [decode, alone_eq, List.cons_append, List.cons_append, List.cons_append, k3]

/-- **C138** Whatever number arrives, however it is written, becomes the `float64` nearest to it (the even one of two); it is refused if and only if it is beyond
the largest `float64` by half a unit or more. -/
theorem C138_read (cs : Codecs) (hc : cs.json = codec) (s : Str) {neg : Bool} {int ds : Str} {x t : Int} (h : NumberOf s neg int ds x) (ht : t = x - ds.length) :
    (∀ f, deserializePayload cs 1 (alone s) = .ok (some [.f64 f], none) ↔ Stands64 s f) ∧
    (∀ m e, Nearest64 (valueOf (int ++ ds) * 10 ^ t.toNat) (10 ^ (-t).toNat) m e →
      deserializePayload cs 1 (alone s) = .ok (some [.f64 (.fin neg m e)], none)) ∧
    (deserializePayload cs 1 (alone s) = .err ↔ (2 ^ 1024 - 2 ^ 970) * 10 ^ (-t).toNat ≤ valueOf (int ++ ds) * 10 ^ t.toNat) := by
  subst ht
  obtain ⟨h1, h2⟩ := numberOf_read h
  have hd : 0 < 10 ^ (-(x - (ds.length : Int))).toNat := Nat.pow_pos (by decide)
  have key : ∀ f, number s = some f → deserializePayload cs 1 (alone s) = .ok (some [.f64 f], none) := by
    intro f hf
    rw [deserializePayload, hc, decodePayload, show codec.dec = decode from rfl, number_alone h1 hf]
    rfl
  have key2 : number s = none → deserializePayload cs 1 (alone s) = .err := by
    intro hf
    rw [deserializePayload, hc, decodePayload, show codec.dec = decode from rfl, number_refused h1 hf]
    rfl
  have kn : number s = none ↔ (2 ^ 1024 - 2 ^ 970) * 10 ^ (-(x - (ds.length : Int))).toNat ≤ valueOf (int ++ ds) * 10 ^ (x - (ds.length : Int)).toNat := by
    rw [h2, Option.map_eq_none_iff, ← valueOf_eq, Strconv.ofDecimal, Strconv.round_none hd (by decide), Strconv.large64]
  refine ⟨fun f => ⟨fun hf => ?_, fun hf => ?_⟩, fun m e hm => ?_, ?_⟩
  · cases hn : number s with
    | none => rw [key2 hn] at hf; cases hf
    | some g =>
      rw [key g hn] at hf
      injection hf with hf
      injection hf with hf
      injection hf with hf
      injection hf with hf
      injection hf with hf
      exact (number_stands ⟨_, _, _, _, h⟩).1 (hf ▸ hn)
  · exact key f ((number_stands ⟨_, _, _, _, h⟩).2 hf)
  · refine key _ ?_
    rw [h2, ← valueOf_eq, Strconv.ofDecimal, (Strconv.round_iff hd).2 hm]
    rfl
  · rw [← kn]
    refine ⟨fun hf => ?_, key2⟩
    cases hn : number s with
    | none => rfl
    | some g => rw [key g hn] at hf; cases hf

/-- The units of `away` make no difference. -/
theorem away_unit {m d a : Nat} {e t b : Int} {K0 : Nat} (h : ∀ K : Nat, K0 ≤ K → away K m e d t ≤ away K m e a b) (K : Nat) (h1 : 0 ≤ t + K) (h2 : 0 ≤ b + K) :
    away K m e d t ≤ away K m e a b := by
  have h3 := h (K + K0) (by omega)
  have hs : ∀ d : Nat, ∀ t : Int, 0 ≤ t + K → away (K + K0) m e d t = away K m e d t * 10 ^ K0 := by
    intro d t ht
    unfold away
    rw [← Strconv.dist_scale, show (t + ((K + K0 : Nat) : Int)).toNat = (t + K).toNat + K0 by omega, Nat.pow_add, Nat.pow_add,
      show d * (10 ^ (t + (K : Int)).toNat * 10 ^ K0) * 2 ^ (-e).toNat = d * 10 ^ (t + (K : Int)).toNat * 2 ^ (-e).toNat * 10 ^ K0 by ac_rfl, Nat.mul_assoc (m * 2 ^ e.toNat)]
  rw [hs d t h1, hs a b h2] at h3
  exact Nat.le_of_mul_le_mul_right h3 (Nat.pow_pos (by decide))

theorem shortest_spec {eb mb m : Nat} {e : Int} (heb : 2 ≤ eb) (hmb : 0 < mb) (hm : m ≠ 0) (hf : Strconv.IsFloat eb mb m e) (h16 : 2 ^ (mb + 1) < 10 ^ 16) {Good : Nat → Int → Prop}
    (hg : ∀ a b, Strconv.ofDecimal eb mb a b = some (m, e) ↔ Good a b) : Shortest Good m e (Strconv.shortest eb mb m e).1 (Strconv.shortest eb mb m e).2 := by
  refine ⟨(hg _ _).1 (Strconv.shortest_reads hm hf).2, fun a b p ha hga hap => ?_⟩
  obtain ⟨h1, h2⟩ := Strconv.shortest_best heb hmb hm hf h16 ha hap ((hg a b).2 hga)
  refine ⟨h1, fun hp K k1 k2 => ?_⟩
  obtain ⟨K0, h3⟩ := h2 hp
  exact away_unit h3 K k1 k2

theorem payload_alone (cs : Codecs) (hc : cs.json = codec) (v : Val) (s : Str) (h : enc v = some s) : serializePayload cs 1 (some [v]) none = .ok (alone s) := by
  have e : prepareForEncode (some [v]) none = [.arr [v]] := rfl
  rw [serializePayload, hc, encodePayload, e]
  simp only [List.length_singleton]
  rw [if_neg (by decide), show codec.enc [.arr [v]] = enc (.arr [.arr [v]]) from rfl]
  simp only [enc, encL, h, Option.map_some, commas, Res.ofOption]
  rw [alone_eq]

/-- **C138** A finite `float64`: what `SerializePayload` writes is a number that stands for it, so that any JSON reader (this library's too) gives exactly it back,
sign of zero included.  No shorter number would do, and none of the same length is nearer. -/
theorem C138_float64 (cs : Codecs) (hc : cs.json = codec) (neg : Bool) (m : Nat) (e : Int) (hf : Float64 m e) :
    ∃ s, serializePayload cs 1 (some [.f64 (.fin neg m e)]) none = .ok (alone s) ∧ Number s ∧ Stands64 s (.fin neg m e) ∧
      deserializePayload cs 1 (alone s) = .ok (some [.f64 (.fin neg m e)], none) ∧
      (m ≠ 0 → ∃ d t, Denotes s neg d t ∧ Shortest (fun d t => Nearest64 (d * 10 ^ t.toNat) (10 ^ (-t).toNat) m e) m e d t) := by
  have hf' := (Strconv.isFloat64 m e).2 hf
  obtain ⟨h1, h2⟩ := float64_read neg m e hf'
  have hn := (isNumber_iff _).1 h1
  have hs := (number_stands hn).1 h2
  refine ⟨floatText 11 52 neg m e, payload_alone cs hc _ _ rfl, hn, hs, ?_, fun hm => ?_⟩
  · obtain ⟨neg', int, ds, x, hp⟩ := hn
    exact ((C138_read cs hc _ hp rfl).1 _).2 hs
  · exact ⟨_, _, floatText_denotes 11 52 neg e hm hf', shortest_spec (by decide) (by decide) hm hf' (by decide)
      fun a b => Strconv.round_iff (Nat.pow_pos (by decide))⟩

/-- **C138** A finite `float32` is written with the digits a `float32` needs, and arrives as the `float64` nearest to those digits. -/
theorem C138_float32 (cs : Codecs) (hc : cs.json = codec) (neg : Bool) (m : Nat) (e : Int) (hf : Float32 m e) :
    ∃ s f, serializePayload cs 1 (some [.f32 (.fin neg m e)]) none = .ok (alone s) ∧ Number s ∧ Stands64 s f ∧
      deserializePayload cs 1 (alone s) = .ok (some [.f64 f], none) ∧
      (m = 0 → f = .fin neg 0 (-1074)) ∧
      (m ≠ 0 → ∃ d t, Denotes s neg d t ∧ Shortest (fun d t => Nearest32 (d * 10 ^ t.toNat) (10 ^ (-t).toNat) m e) m e d t) := by
  have hf' := (Strconv.isFloat32 m e).2 hf
  obtain ⟨h1, h2⟩ := float32_read neg m e hf'
  have hn := (isNumber_iff _).1 h1
  have hs := (number_stands hn).1 h2
  refine ⟨floatText 8 23 neg m e, _, payload_alone cs hc _ _ rfl, hn, hs, ?_, fun hm => ?_, fun hm => ?_⟩
  · obtain ⟨neg', int, ds, x, hp⟩ := hn
    exact ((C138_read cs hc _ hp rfl).1 _).2 hs
  · rw [jsonF32, if_pos hm, show Strconv.round 11 52 0 1 = some (0, -1074) by decide +kernel]
    rfl
  · exact ⟨_, _, floatText_denotes 8 23 neg e hm hf', shortest_spec (by decide) (by decide) hm hf' (by decide)
      fun a b => Strconv.round_iff32 (Nat.pow_pos (by decide))⟩

/-- 0.1, the smallest and the largest `float64`, 100 million, minus zero; 0.1 as `float32`. -/
example : let cs : Codecs := ⟨codec, codec, codec⟩
    (Float64 7205759403792794 (-56) ∧ Float64 1 (-1074) ∧ Float64 (2 ^ 53 - 1) 971 ∧ Float64 (5 ^ 8 * 2 ^ 34) (-26) ∧ Float64 0 (-1074) ∧ Float32 13421773 (-27)) ∧
    serializePayload cs 1 (some [.f64 (.fin false 7205759403792794 (-56))]) none = .ok (str "[[0.1]]") ∧
    serializePayload cs 1 (some [.f64 (.fin true 1 (-1074))]) none = .ok (str "[[-5e-324]]") ∧
    serializePayload cs 1 (some [.f64 (.fin false (2 ^ 53 - 1) 971)]) none = .ok (str "[[1.7976931348623157e+308]]") ∧
    serializePayload cs 1 (some [.f64 (.fin false (5 ^ 8 * 2 ^ 34) (-26))]) none = .ok (str "[[100000000]]") ∧
    serializePayload cs 1 (some [.f64 (.fin true 0 (-1074))]) none = .ok (str "[[-0]]") ∧
    serializePayload cs 1 (some [.f32 (.fin false 13421773 (-27))]) none = .ok (str "[[0.1]]") := by
  intro cs
  refine ⟨by unfold Float64 Spec.Float32; decide +kernel, ?_, ?_, ?_, ?_, ?_, ?_⟩
  · exact payload_alone cs rfl _ (str "0.1") (by decide +kernel)
  · exact payload_alone cs rfl _ (str "-5e-324") (by decide +kernel)
  · exact payload_alone cs rfl _ (str "1.7976931348623157e+308") (by decide +kernel)
  · exact payload_alone cs rfl _ (str "100000000") (by decide +kernel)
  · exact payload_alone cs rfl _ (str "-0") (by decide +kernel)
  · exact payload_alone cs rfl _ (str "0.1") (by decide +kernel)

/-- A number that is halfway between two `float64`s, and the first that is refused. -/
example : NumberOf (str "9007199254740993") false (str "9007199254740993") [] 0 ∧
    Nearest64 (valueOf (str "9007199254740993") * 10 ^ (0 : Int).toNat) (10 ^ (-(0 : Int)).toNat) (2 ^ 52) 1 ∧
    NumberOf (str "1.8E308") false (str "1") (str "8") 308 ∧
    (2 ^ 1024 - 2 ^ 970) * 10 ^ (-(307 : Int)).toNat ≤ valueOf (str "18") * 10 ^ (307 : Int).toNat := by
  refine ⟨⟨[], [], by decide, ⟨⟨by decide, by decide⟩, by decide⟩, .inl ⟨rfl, rfl⟩, .inl ⟨rfl, rfl⟩⟩, ?_,
    ⟨str ".8", str "E308", by decide, ⟨⟨by decide, by decide⟩, by decide⟩, .inr ⟨⟨by decide, by decide⟩, by decide⟩,
      .inr ⟨0x45, [], str "308", .inr rfl, ⟨by decide, by decide⟩, by decide, .inl ⟨.inl rfl, by decide⟩⟩⟩, by decide +kernel⟩
  exact (Strconv.round_iff (by decide)).1 (by decide +kernel)

end Wamp.Json
