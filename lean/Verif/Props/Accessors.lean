import Verif.Spec.Accessors
import Verif.Props.Connection
/-!
# C101: what goes into a message comes out of it
-/
namespace Wamp
open Spec

/-- **C101** The accessors of a message return what its constructor was given.  RESULTs built with a binary payload and serializer 0 are
the exception, see `C101_result_zero`. -/
theorem C101_accessors_partial (b : Build GoMap) (h : ∀ r d p, b ≠ .resultBinary r d p 0) (f : Field) (v : Obs) (hv : (f, v) ∈ told b) :
    b.run.get f = some v := by
  have key : ∀ p ∈ told b, b.run.get p.1 = some p.2 := by
    cases b
    case resultBinary r d p s =>
      have hs : s ≠ 0 := fun e => h r d p (e ▸ rfl)
      simp only [told, List.forall_mem_cons, List.not_mem_nil, false_implies, implies_true, and_true]
      exact ⟨rfl, by simp [Build.run, newResultBinary, Msg.get, Msg.payloadIsBinary, hs], rfl, rfl⟩
    all_goals
      simp only [told, body, plain, List.forall_mem_cons, List.not_mem_nil, false_implies, implies_true, and_true]
      repeat' apply And.intro
      all_goals rfl
  exact key _ hv

/-- **C101** (refuted part) A RESULT built by `NewResultBinary` with serializer 0 denies having a binary payload, although it has. -/
theorem C101_result_zero (r : Nat) (d : GoMap) (p : Str) :
    (newResultBinary r d p 0).get .payloadIsBinary = some (.flag false) ∧ (newResultBinary r d p 0).get .payload = some (.bytes p) :=
  ⟨rfl, rfl⟩

example : (Build.error 48 7 none (str "e") none (some [(str "k", .nil)])).run.get .requestID = some (.id 7) :=
  C101_accessors_partial _ (by intro _ _ _ h; cases h) .requestID (.id 7) (by simp [told])

theorem arrives_dict (norm : Val → Val) (d : GoMap) : Arrives norm (.dict (some (entries d))) (.dict (onMap norm (orEmpty d))) := .dict _

theorem arrives_args (norm : Val → Val) (a : GoSlice) (k : GoMap) : Arrives norm (.list a) (.list (onArgs norm a k)) := by
  cases a with
  | some l => exact .list l
  | none => cases k with
    | none => exact .noList
    | some d => exact .noListEmpty

theorem arrives_map (norm : Val → Val) (k : GoMap) : Arrives norm (.dict k) (.dict (onMap norm k)) := by
  cases k with
  | none => exact .noDict
  | some d => exact .dict d

theorem arrives_filled (norm : Val → Val) (k : GoMap) : Arrives norm (.dict k) (.dict (some (onDict norm (k.getD [])))) := by
  cases k with
  | none => exact .noDictEmpty
  | some d => exact .dict d

theorem arrives_texts (norm : Val → Val) (l : Option (List Str)) : Arrives norm (.texts l) (.texts (some (l.getD []))) := by
  cases l with
  | none => exact .noTexts
  | some l => exact .texts l

/-- **C101** At the other end: a message without binary payload, sent by any faithful serializer, is received as a message whose
accessors return what the sender's constructor was given. -/
theorem C101_received (c : Codec) (norm : Val → Val) (ok : List Val → Prop) (b : Build GoMap) (hb : isBinary b = false)
    (hc : RawSocket.Carries c norm ok b.run) (f : Field) (v : Obs) (hv : (f, v) ∈ told b) :
    ∃ s m w, c.serialize b.run = .ok s ∧ c.deserialize s = .ok m ∧ m.type = b.run.type ∧ m.get f = some w ∧ Arrives norm v w := by
  have key : ∀ p ∈ told b, ∃ w, (received norm b.run).get p.1 = some w ∧ Arrives norm p.2 w := by
    cases b
    all_goals first
      | exact absurd hb (by decide)
      | exact absurd hb Bool.noConfusion
      | (simp only [told, body, plain, List.forall_mem_cons, List.not_mem_nil, false_implies, implies_true, and_true]
         repeat' apply And.intro
         all_goals exact ⟨_, rfl, by
           first
             | exact .id _ | exact .text _ | exact .flag _ | exact .bytes _ | exact arrives_dict .. | exact arrives_args .. | exact arrives_map ..
             | exact arrives_filled .. | exact arrives_texts ..⟩)
  obtain ⟨hf, hok, ht, hn⟩ := hc
  have h := C14_roundtrip_partial ok c b.run hok ht
  have : ∃ s, c.serialize b.run = .ok s ∧ c.deserialize s = .ok (received norm b.run) := by
    rcases hn with ⟨rfl, hid⟩ | rfl | rfl
    · exact h.1 hf hid
    · exact h.2.1 hf
    · exact h.2.2 hf
  obtain ⟨s, h1, h2⟩ := this
  obtain ⟨w, h3, h4⟩ := key _ hv
  refine ⟨s, _, w, h1, h2, ?_, h3, h4⟩
  cases b <;> rfl

/-- An INVOCATION with everything in it, sent as JSON: it arrives with its registration ID, its kwargs and so on. -/
example : ∃ (c : Codec) (ok : List Val → Prop),
    let b : Build GoMap := .invocation 7 9 (some [(str "progress", .bool true)]) none (some [(str "k", .arr [.uint .u8 1])])
    isBinary b = false ∧ RawSocket.Carries c jsonWire ok b.run ∧ (.registrationID, .id 9) ∈ told b := by
  let b : Build GoMap := .invocation 7 9 (some [(str "progress", .bool true)]) none (some [(str "k", .arr [.uint .u8 1])])
  refine ⟨⟨fun _ => some [1], fun _ => some (b.run.marshal.map jsonWire)⟩, fun l => l = b.run.marshal, rfl, ⟨?_, rfl, ⟨by simp [orEmpty], rfl⟩, .inl ⟨rfl, ?_⟩⟩, by simp [told]⟩
  · rintro l rfl; exact ⟨_, rfl, rfl⟩
  · simp [Build.run, newInvocation, ids]

end Wamp
