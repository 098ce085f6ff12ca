import Verif.Props.Frames
import Verif.Props.Wire
/-!
# C94: messages over a raw socket

`Serialize` and `SendMessageHeader` on one side, `ReceiveMessageHeader` and `Deserialize` on the other.
-/
namespace Wamp.RawSocket
open Wamp Wamp.Spec

/-- What the sender writes: every message serialized and framed, one after the other (`none`: a message cannot be serialized). -/
def writeMessages (c : Codec) : List Msg → Option Str
  | [] => some []
  | m :: rest =>
    match c.serialize m, writeMessages c rest with
    | .ok b, some s => some (sendMessageHeader ⟨0, b.length⟩ ++ b ++ s)
    | _, _ => none

/-- What the receiver gets out of the bytes read so far: every complete frame deserialized. -/
def readMessages (c : Codec) (n : Nat) (s : Str) : List (Res Msg) := (readFrames n s).map fun f => c.deserialize f.2

/-- Round trip of one message through the codec, as C14 states it. -/
def Survives (c : Codec) (got : Msg → Msg) (m : Msg) : Prop :=
  ∃ b, c.serialize m = .ok b ∧ b.length < 2 ^ 24 ∧ c.deserialize b = .ok (got m)

/-- The formats: how numbers change on the way and which identifiers survive. -/
def Carries (c : Codec) (norm : Val → Val) (ok : List Val → Prop) (m : Msg) : Prop :=
  Faithful c norm ok ∧ ok m.marshal ∧ Transmissible m ∧
    ((norm = jsonWire ∧ ∀ n ∈ ids m, n ≤ 2 ^ 53) ∨ norm = cborWire ∨ norm = msgpackWire)

theorem Carries.survives {c : Codec} {norm : Val → Val} {ok : List Val → Prop} {m : Msg} (h : Carries c norm ok m)
    (hs : ∀ b, c.serialize m = .ok b → b.length < 2 ^ 24) : Survives c (received norm) m := by
  obtain ⟨hf, hok, ht, hn⟩ := h
  have h := C14_roundtrip_partial ok c m hok ht
  have : ∃ b, c.serialize m = .ok b ∧ c.deserialize b = .ok (received norm m) := by
    rcases hn with ⟨rfl, hid⟩ | rfl | rfl
    · exact h.1 hf hid
    · exact h.2.1 hf
    · exact h.2.2 hf
  obtain ⟨b, h1, h2⟩ := this
  exact ⟨b, h1, hs b h1, h2⟩

theorem writeFrames_append (a b : List (UInt8 × Str)) : writeFrames (a ++ b) = writeFrames a ++ writeFrames b := by
  induction a with
  | nil => rfl
  | cons x a ih => obtain ⟨c, p⟩ := x; simp [writeFrames, ih]

theorem writeFrames_take_le (l : List (UInt8 × Str)) {i j : Nat} (h : i ≤ j) :
    (writeFrames (l.take i)).length ≤ (writeFrames (l.take j)).length := by
  obtain ⟨d, rfl⟩ := Nat.exists_eq_add_of_le h
  have : l.take (i + d) = l.take i ++ (l.drop i).take d := by
    rw [List.take_add]
  rw [this, writeFrames_append, List.length_append]
  omega

/-- **C94** Messages that are serialized (by a codec faithful for JSON, CBOR or MsgPack) and framed one after the other, each below 2^24
bytes, arrive in order and unchanged up to the format's widening: wherever the stream is cut, what the receiver gets from the first `cut`
bytes are the messages whose bytes have arrived completely, all of them, and nothing else. -/
theorem C94_connection (c : Codec) (norm : Val → Val) (ok : List Val → Prop) (l : List Msg)
    (hl : ∀ m ∈ l, Carries c norm ok m) (hsize : ∀ m ∈ l, ∀ b, c.serialize m = .ok b → b.length < 2 ^ 24) :
    ∃ s, writeMessages c l = some s ∧ ∀ cut n, l.length ≤ n →
      ∃ k ≤ l.length, readMessages c n (s.take cut) = (l.take k).map (fun m => .ok (received norm m)) ∧
        ∀ j ≤ l.length, (j ≤ k ↔ ∃ p, writeMessages c (l.take j) = some p ∧ p.length ≤ cut) := by
  have hsv : ∀ m ∈ l, Survives c (received norm) m := fun m hm => (hl m hm).survives (hsize m hm)
  -- frames of all messages, and of the first `j`
  have key : ∀ l : List Msg, (∀ m ∈ l, Survives c (received norm) m) →
      ∃ fs : List (UInt8 × Str), fs.length = l.length ∧ (∀ f ∈ fs, f.2.length < 2 ^ 24) ∧
        fs.map (fun f => c.deserialize f.2) = l.map (fun m => .ok (received norm m)) ∧
        ∀ j, writeMessages c (l.take j) = some (writeFrames (fs.take j)) := by
    intro l
    induction l with
    | nil => intro _; exact ⟨[], rfl, by simp, rfl, by simp [writeMessages, writeFrames]⟩
    | cons m l ih =>
      intro hl
      obtain ⟨fs, h2, h3, h4, h1⟩ := ih fun x hx => hl x (List.mem_cons_of_mem _ hx)
      obtain ⟨b, e1, e2, e3⟩ := hl m (List.mem_cons_self ..)
      refine ⟨(0, b) :: fs, by simp [h2], ?_, by simp [e3, h4], ?_⟩
      · intro f hf
        rcases List.mem_cons.1 hf with rfl | hf
        · exact e2
        · exact h3 f hf
      · intro j
        cases j with
        | zero => rfl
        | succ j => rw [List.take_succ_cons, List.take_succ_cons, writeMessages, e1, h1 j]; rfl
  obtain ⟨fs, h2, h3, h4, h1⟩ := key l hsv
  refine ⟨writeFrames fs, by have := h1 l.length; rwa [List.take_length, ← h2, List.take_length] at this, fun cut n hn => ?_⟩
  obtain ⟨k, g1, g2, g3, g4⟩ := C86_stream fs h3 cut n (by omega)
  refine ⟨k, by omega, ?_, fun j hj => ?_⟩
  · rw [readMessages, g1, List.map_take, h4, List.map_take]
  · constructor
    · intro hjk
      exact ⟨_, h1 j, Nat.le_trans (writeFrames_take_le fs hjk) g3⟩
    · rintro ⟨p, hp, hlen⟩
      rw [h1 j] at hp
      cases hp
      refine Nat.le_of_not_lt fun hlt => ?_
      have := g2 (by omega)
      have := writeFrames_take_le fs (i := k + 1) (j := j) hlt
      omega

/-- **C94** In particular, once all bytes have arrived, all messages have. -/
theorem C94_all (c : Codec) (norm : Val → Val) (ok : List Val → Prop) (l : List Msg)
    (hl : ∀ m ∈ l, Carries c norm ok m) (hsize : ∀ m ∈ l, ∀ b, c.serialize m = .ok b → b.length < 2 ^ 24) :
    ∃ s, writeMessages c l = some s ∧ ∀ n, l.length ≤ n →
      readMessages c n s = l.map (fun m => .ok (received norm m)) := by
  obtain ⟨s, h1, h2⟩ := C94_connection c norm ok l hl hsize
  refine ⟨s, h1, fun n hn => ?_⟩
  obtain ⟨k, hk, g1, g2⟩ := h2 s.length n hn
  have : l.length ≤ k := (g2 l.length (Nat.le_refl _)).2 ⟨s, by rwa [List.take_length], Nat.le_refl _⟩
  rw [List.take_of_length_le (Nat.le_refl _)] at g1
  rw [g1, List.take_of_length_le this]

end Wamp.RawSocket
