import Verif.Spec.Heap
import Verif.Props.Accessors
import Verif.Props.Auth
/-!
# C102: building one message does not change another
-/
namespace Wamp.Heap
open Wamp Wamp.Spec

theorem load_append {h : Heap} {a : Nat} (ha : a < h.length) (d : Dict) : load (h ++ [d]) (some a) = load h (some a) := by
  simp [load, List.getElem?_append_left ha]

theorem load_store (h : Heap) (a : Nat) (k : Str) (v : Val) (x : Nat) :
    load (store h a k v) (some x) = if a = x then (load h (some x)).map (dset · k v) else load h (some x) := by
  simp only [load, store, List.getElem?_modify]
  split <;> simp

/-- Nothing is said of the reference of a nil map. -/
theorem make_load (h : Heap) (r : Ref) (hr : ∀ a, r = some a → a < h.length) :
    load (make h r).1 (some (make h r).2) = orEmpty (load h r) := by
  cases r with
  | none => simp [make, load, orEmpty]
  | some a =>
    have := hr a rfl
    simp [make, load, orEmpty, List.getElem?_eq_getElem this]

theorem make_other (h : Heap) (r : Ref) (k : Ref) (hk : ∀ a, k = some a → a < h.length) : load (make h r).1 k = load h k := by
  cases r with
  | some a => rfl
  | none =>
    cases k with
    | none => rfl
    | some a => exact load_append (hk a rfl) _

theorem makeBinary_load (h : Heap) (r : Ref) (s : Nat) (hr : ∀ a, r = some a → a < h.length) :
    load (makeBinary h r s).1 (some (makeBinary h r s).2) = withSerializer (load h r) s := by
  simp only [makeBinary, load_store, if_true, make_load h r hr]
  rfl

/-- **C102** Right after it has been built, a message is the one described in Model/Messages for the contents of the maps passed. -/
theorem C102_as_described (h : Heap) (b : Build Ref) (hv : Valid h b) : (run h b).2 (run h b).1 = (contents h b).run := by
  have h1 : ∀ r, r ∈ passed b → ∀ a, r = some a → a < h.length := fun r hr a e => hv a (e ▸ hr)
  cases b <;> simp only [passed, List.forall_mem_cons, List.not_mem_nil, false_implies, implies_true, and_true] at h1 <;>
    first
    | rfl
    | (simp only [run, contents, Build.run, newAbort, newGoodBye, newError, newPublish, newSubscribe, newEvent, newCall, newCallBinary, newCancel,
        newResult, newResultBinary, newRegister, newInvocation, newInvocationBinary, newInterrupt, newYield, newYieldBinary]
       first
       | rw [make_load _ _ h1.1, make_other _ _ _ h1.2]
       | rw [make_load _ _ h1]
       | rw [makeBinary_load _ _ _ h1])

example : Valid [[(str "timeout", .u64 5)]] (.callBinary 1 (some 0) (str "p") [1, 2] 3) := by
  intro a ha; simp only [passed, List.mem_cons, Option.some.injEq, List.not_mem_nil, or_false] at ha; subst ha; decide

/-! ### What later constructor calls do -/

/-- The map a constructor call writes to. -/
def target : Build Ref → Ref
  | .callBinary _ o _ _ _ => o
  | .resultBinary _ d _ _ => d
  | .invocationBinary _ _ d _ _ => d
  | .yieldBinary _ o _ _ => o
  | _ => none

theorem make_step (h : Heap) (r : Ref) : h.length ≤ (make h r).1.length ∧ ∀ a < h.length, load (make h r).1 (some a) = load h (some a) := by
  cases r with
  | some _ => exact ⟨Nat.le_refl _, fun _ _ => rfl⟩
  | none => exact ⟨by simp [make], fun a ha => load_append ha _⟩

theorem makeBinary_step (h : Heap) (r : Ref) (s : Nat) : h.length ≤ (makeBinary h r s).1.length ∧
    ∀ a < h.length, (r ≠ some a → load (makeBinary h r s).1 (some a) = load h (some a)) ∧
      ∀ k, k ≠ str "x_payload_serializer" → (load (makeBinary h r s).1 (some a)).get k = (load h (some a)).get k := by
  obtain ⟨h1, h2⟩ := make_step h r
  refine ⟨by simpa [makeBinary, store] using h1, fun a ha => ⟨fun hr => ?_, fun k hk => ?_⟩⟩
  · rw [makeBinary, load_store, if_neg, h2 a ha]
    rintro rfl
    cases r with
    | none => simp [make] at ha
    | some x => exact hr rfl
  · rw [makeBinary, load_store, h2 a ha]
    split
    · cases load h (some a) with
      | none => rfl
      | some d => exact dget_dset_other _ _ hk
    · rfl

/-- One constructor call: the heap grows, maps other than its target stay, and in its target only `x_payload_serializer` changes. -/
theorem run_step (h : Heap) (b : Build Ref) : h.length ≤ (run h b).1.length ∧
    ∀ a < h.length, (target b ≠ some a → load (run h b).1 (some a) = load h (some a)) ∧
      ∀ k, k ≠ str "x_payload_serializer" → (load (run h b).1 (some a)).get k = (load h (some a)).get k := by
  have same : h.length ≤ h.length ∧ ∀ a < h.length, (target b ≠ some a → load h (some a) = load h (some a)) ∧
      ∀ k, k ≠ str "x_payload_serializer" → (load h (some a)).get k = (load h (some a)).get k :=
    ⟨Nat.le_refl _, fun _ _ => ⟨fun _ => rfl, fun _ _ => rfl⟩⟩
  have made : ∀ r, h.length ≤ (make h r).1.length ∧ ∀ a < h.length, (target b ≠ some a → load (make h r).1 (some a) = load h (some a)) ∧
      ∀ k, k ≠ str "x_payload_serializer" → (load (make h r).1 (some a)).get k = (load h (some a)).get k :=
    fun r => ⟨(make_step h r).1, fun a ha => ⟨fun _ => (make_step h r).2 a ha, fun k _ => by rw [(make_step h r).2 a ha]⟩⟩
  cases b
  all_goals first
    | exact same
    | exact made _
    | exact makeBinary_step ..

theorem runAll_step (bs : List (Build Ref)) (h : Heap) : h.length ≤ (runAll h bs).length ∧
    ∀ a < h.length, ((∀ b ∈ bs, target b ≠ some a) → load (runAll h bs) (some a) = load h (some a)) ∧
      ∀ k, k ≠ str "x_payload_serializer" → (load (runAll h bs) (some a)).get k = (load h (some a)).get k := by
  induction bs generalizing h with
  | nil => exact ⟨Nat.le_refl _, fun _ _ => ⟨fun _ => rfl, fun _ _ => rfl⟩⟩
  | cons b bs ih =>
    obtain ⟨h1, h2⟩ := run_step h b
    obtain ⟨h3, h4⟩ := ih (run h b).1
    refine ⟨Nat.le_trans h1 h3, fun a ha => ⟨fun hb => ?_, fun k hk => ?_⟩⟩
    · rw [runAll, (h4 a (by omega)).1 fun b' hb' => hb b' (.tail _ hb'), (h2 a ha).1 (hb b (.head _))]
    · rw [runAll, (h4 a (by omega)).2 k hk, (h2 a ha).2 k hk]

theorem touches_target {b : Build Ref} {a : Nat} (h : target b = some a) (l : List Nat) (ha : a ∈ l) : Touches l b := by
  cases b
  all_goals first
    | (simp [target] at h; done)
    | (simp only [target] at h; exact ⟨rfl, a, ha, by simp [passed, h]⟩)

theorem make_lt (h : Heap) (r : Ref) (hr : ∀ a, r = some a → a < h.length) : (make h r).2 < (make h r).1.length ∧
    (make h r).2 ∈ [r].filterMap id ++ [h.length] := by
  cases r with
  | none => simp [make]
  | some a => simpa [make] using hr a rfl

/-- What a message is depends on the maps it holds, and they are all in the heap. -/
theorem depends (h : Heap) (b : Build Ref) (hv : Valid h b) (h' : Heap)
    (he : ∀ a ∈ held h b, a < (run h b).1.length → load h' (some a) = load (run h b).1 (some a)) : (run h b).2 h' = (run h b).2 (run h b).1 := by
  have h1 : ∀ r, r ∈ passed b → load h' r = load (run h b).1 r := by
    intro r hr
    cases r with
    | none => rfl
    | some a =>
      refine he a (List.mem_append_left _ (List.mem_filterMap.2 ⟨_, hr, rfl⟩)) ?_
      exact Nat.lt_of_lt_of_le (hv a hr) (run_step h b).1
  have h2 : ∀ r, r ∈ passed b → (make h r).2 < (run h b).1.length → load h' (some (make h r).2) = load (run h b).1 (some (make h r).2) := by
    intro r hr hl
    refine he _ ?_ hl
    cases r with
    | none => simp [make, held]
    | some a => exact List.mem_append_left _ (List.mem_filterMap.2 ⟨_, hr, rfl⟩)
  have h3 : ∀ r, r ∈ passed b → (make h r).2 < (make h r).1.length := by
    intro r hr
    exact (make_lt h r fun a e => hv a (e ▸ hr)).1
  have h4 : ∀ r s, r ∈ passed b → (makeBinary h r s).2 < (makeBinary h r s).1.length := by
    intro r s hr
    simpa [makeBinary, store] using h3 r hr
  cases b <;> simp only [passed, List.forall_mem_cons, List.not_mem_nil, false_implies, implies_true, and_true] at h1 h2 h3
  all_goals first
    | rfl
    | (simp only [run] at h1 h2 ⊢
       first
       | rw [h2.1 h3.1, h1.2]
       | rw [h1.1, h1.2]
       | rw [h2 h3]
       | rw [h1])
    | (rename_i s
       have h5 := h4 _ s (.head _)
       simp only [run] at h1 h2 ⊢
       have h6 : ∀ r, (makeBinary h r s).2 = (make h r).2 := fun _ => rfl
       rw [h6] at h5 ⊢
       rw [h2 h5])

/-- **C102** what holds: a message stays as it was built, whatever is built after it, as long as none of its own maps is passed to a
constructor of binary messages. -/
theorem C102_undisturbed_partial (h : Heap) (b : Build Ref) (hv : Valid h b) (later : List (Build Ref))
    (hl : ∀ b' ∈ later, ¬ Touches (held h b) b') : (run h b).2 (runAll (run h b).1 later) = (run h b).2 (run h b).1 := by
  refine depends h b hv _ fun a ha hlt => ((runAll_step later (run h b).1).2 a hlt).1 fun b' hb' ht => ?_
  exact hl b' hb' (touches_target ht _ ha)

/-- A PUBLISH built with nil options, then a binary CALL with nil options of its own and a binary YIELD with another map. -/
example : Valid [[], []] (.publish 1 none (str "t") none (some 0)) ∧
    ∀ b' ∈ [Build.callBinary 2 none (str "p") [1] 3, .yieldBinary 3 (some 1) [2] 1], ¬ Touches (held [[], []] (.publish 1 none (str "t") none (some 0))) b' := by
  refine ⟨fun a ha => ?_, fun b' hb' ⟨_, a, h1, h2⟩ => ?_⟩
  · simp only [passed, List.mem_cons, reduceCtorEq, Option.some.injEq, List.not_mem_nil, or_false, false_or] at ha; subst ha; decide
  · simp only [held, passed, List.filterMap_cons, List.filterMap_nil, id, List.mem_append, List.mem_cons, List.not_mem_nil, or_false] at h1 hb'
    rcases hb' with rfl | rfl <;> simp [passed] at h2
    subst h2
    simp at h1

/-- **C102** And the worst that can happen to any map: its `x_payload_serializer` changes. -/
theorem C102_only_serializer (h : Heap) (later : List (Build Ref)) (a : Nat) (ha : a < h.length) (k : Str)
    (hk : k ≠ str "x_payload_serializer") : (load (runAll h later) (some a)).get k = (load h (some a)).get k :=
  ((runAll_step later h).2 a ha).2 k hk

example : ([[(str "timeout", .u64 5)]] : Heap).length = 1 ∧ str "timeout" ≠ str "x_payload_serializer" := by decide

/-- **C102** (refuted part) Two binary CALLs built with the same options: the options of the first name the serializer of the second,
although the first says otherwise itself. -/
theorem C102_disturbed (h : Heap) (a r r' s s' : Nat) (p p' b b' : Str) (ha : a < h.length) :
    let first := run h (.callBinary r (some a) p b s)
    let second := run first.1 (.callBinary r' (some a) p' b' s')
    (∃ d, (first.2 first.1).get .options = some (.dict (some d)) ∧ dget d (str "x_payload_serializer") = some (.u64 s)) ∧
    (∃ d, (first.2 second.1).get .options = some (.dict (some d)) ∧ dget d (str "x_payload_serializer") = some (.u64 s')) ∧
    (first.2 second.1).get .payloadSerializer = some (.id s) := by
  obtain ⟨d, hd⟩ : ∃ d, load h (some a) = some d := ⟨h[a], by simp [load, ha]⟩
  refine ⟨⟨dset d (str "x_payload_serializer") (.u64 s), ?_, dget_dset_same _ _ _⟩,
    ⟨dset (dset d (str "x_payload_serializer") (.u64 s)) (str "x_payload_serializer") (.u64 s'), ?_, dget_dset_same _ _ _⟩, rfl⟩
  · simp [run, makeBinary, make, Msg.get, load_store, hd]
  · simp [run, makeBinary, make, Msg.get, load_store, hd]

example : 0 < ([[]] : Heap).length := by decide

/-! ### CryptoSign authenticators -/

/-- **C102** `NewCryptoSignAuthenticator` is the function described in Model/Auth for the contents of the map passed. -/
theorem C102_cryptosign_as_described (cr : Crypto) (h : Heap) (id key : Str) (r : Ref) (hr : ∀ a, r = some a → a < h.length) :
    Wamp.newCryptoSign cr id key (load h r) = match newCryptoSign cr h id key r with
      | (h', .ok (i, a, seed)) => .ok (.cryptosign i (load h' (some a)) seed)
      | (_, .err) => .err
      | (_, .panic) => .panic := by
  simp only [Wamp.newCryptoSign, newCryptoSign]
  cases hexDecode key with
  | none => rfl
  | some raw =>
    by_cases hl : raw.length = 32
    · simp only [hl, ne_eq, not_true, if_false]
      have e : load (make h r).1 (some (make h r).2) = some ((load h r).getD []) := make_load h r hr
      rw [e]
      simp only [GoMap.get]
      generalize (dget ((load h r).getD []) (str "pubkey")).getD .nil = v
      cases v <;> simp only [load_store, if_true, e, Option.map_some]
      rename_i val
      by_cases hv : val = hexEncode (cr.pubOfSeed raw) <;> simp [hv, e]
    · simp [hl]

/-- **C102** (refuted part) Two authenticators for different keys cannot be built with the same map of extra: the first adds its public
key to the map, and the second takes it for a wrong one. -/
theorem C102_cryptosign_shared (cr : Crypto) (h : Heap) (a : Nat) (ha : a < h.length) (id id' seed seed' : Str)
    (hs : seed.length = 32) (hs' : seed'.length = 32) (hp : hexEncode (cr.pubOfSeed seed) ≠ hexEncode (cr.pubOfSeed seed'))
    (hn : (load h (some a)).get (str "pubkey") = none) :
    ∃ h', newCryptoSign cr h id (hexEncode seed) (some a) = (h', .ok (id, a, seed)) ∧
      (newCryptoSign cr h' id' (hexEncode seed') (some a)).2 = .err := by
  obtain ⟨d, hd⟩ : ∃ d, load h (some a) = some d := ⟨h[a], by simp [load, ha]⟩
  refine ⟨store h a (str "pubkey") (.str (hexEncode (cr.pubOfSeed seed))), ?_, ?_⟩
  · simp [newCryptoSign, hexDecode_encode, hs, make, hn]
  · simp [newCryptoSign, hexDecode_encode, hs', make, load_store, hd, GoMap.get, dget_dset_same, hp]

example : let cr : Crypto := ⟨fun _ _ => [1], fun _ _ _ _ => [], id, fun _ _ => [], fun _ _ _ => false⟩
    hexEncode (cr.pubOfSeed (List.replicate 32 1)) ≠ hexEncode (cr.pubOfSeed (List.replicate 32 2)) ∧
      (load [[(str "x", .nil)]] (some 0)).get (str "pubkey") = none := by decide

/-- **C102** what holds: the public key in the extra of an authenticator stays, whatever authenticators are built after it, with whichever
maps. -/
theorem C102_cryptosign_keeps (cr : Crypto) (later : List (Str × Str × Ref)) (h : Heap) (a : Nat) (ha : a < h.length) (s : Str)
    (hs : (load h (some a)).get (str "pubkey") = some (.str s)) :
    (load (later.foldl (fun h x => (newCryptoSign cr h x.1 x.2.1 x.2.2).1) h) (some a)).get (str "pubkey") = some (.str s) := by
  induction later generalizing h with
  | nil => exact hs
  | cons x later ih =>
    obtain ⟨id, key, r⟩ := x
    rw [List.foldl_cons]
    have hm := make_step h r
    have hm2 : (load (make h r).1 (some a)).get (str "pubkey") = some (.str s) := by rw [hm.2 a ha]; exact hs
    have : a < (newCryptoSign cr h id key r).1.length ∧ (load (newCryptoSign cr h id key r).1 (some a)).get (str "pubkey") = some (.str s) := by
      simp only [newCryptoSign]
      cases hexDecode key with
      | none => exact ⟨ha, hs⟩
      | some raw =>
        by_cases hl : raw.length = 32
        · simp only [hl, ne_eq, not_true, if_false]
          have hlt : a < (make h r).1.length := by omega
          cases hv : ((load (make h r).1 (some (make h r).2)).get (str "pubkey")).getD .nil
          case nil =>
            refine ⟨by simpa [store] using hlt, ?_⟩
            rw [load_store, if_neg]
            · exact hm2
            · intro e
              rw [e, hm2] at hv
              cases hv
          case str val =>
            simp only
            split <;> exact ⟨hlt, hm2⟩
          all_goals exact ⟨hlt, hm2⟩
        · simp only [hl, ne_eq, not_false_eq_true, if_true]
          exact ⟨ha, hs⟩
    exact ih _ this.1 this.2

example : (load [[(str "pubkey", .str (str "ab"))]] (some 0)).get (str "pubkey") = some (.str (str "ab")) := rfl

end Wamp.Heap
