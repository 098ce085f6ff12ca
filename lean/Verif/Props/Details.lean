import Verif.Spec.Details
import Verif.Model.MsgPack
/-!
# C152: unknown details of handshake messages are ignored
-/
namespace Wamp

private theorem deserialize_of (c : Codec) {b : Str} {v : Val} {rest : List Val} {n : Nat} {k : Kind} (hd : c.dec b = some (v :: rest))
    (hv : asUInt64 v = some n) (hk : kindOfCode n = some k) :
    c.deserialize b = (parse k (v :: rest)).bind fun m => parse m.kind (v :: rest) := by
  have : toMessage (v :: rest) = parse k (v :: rest) := by
    simp [toMessage, item, Res.orPanic, hv, hk]
  simp only [Codec.deserialize, hd, Res.ofOption, Res.bind_ok, this]

private theorem hello_parse (v x : Val) (d : Dict) :
    parse .hello [v, x, .map d] = (Res.ofOption x.asStr?).bind fun r => parseHello { realm := r, details := some d } := by
  simp only [parse, validateMessage, Kind.vspec, List.length_cons, List.length_nil, runValidators, Vd.run, validateString, validateMap, item,
    Res.orPanic]
  cases hx : x.asStr? <;> simp [Res.ofOption, Res.map, Res.bind, Val.asMap?, hx]

private theorem hello_read (c : Codec) {b : Str} {v x : Val} {d : Dict} (hv : asUInt64 v = some 1) (hb : c.dec b = some [v, x, .map d]) :
    c.deserialize b = (Res.ofOption x.asStr?).bind fun r => parseHello { realm := r, details := some d } := by
  rw [deserialize_of c hb hv (k := .hello) rfl, hello_parse]
  cases hx : x.asStr? with
  | none => rfl
  | some r =>
    simp only [Res.ofOption, Res.bind_ok]
    cases hm : anysToStrings (GoMap.sliceOrEmpty (some d) (str "authmethods")) with
    | none => simp [parseHello, hm, Res.bind]
    | some ms => simp [parseHello, hm, Msg.kind, hello_parse, hx, Res.ofOption]

/-- **C152.** A HELLO may announce any roles, and contain any further details: the acceptor answers as if they were not there. -/
theorem C152_hello (cr : Crypto) (c : Codec) (env : Acceptor.Env) (s : Acceptor.State) {b b' : Str}
    (h : sameBut c 1 ["authid", "authmethods", "authextra"] b b') :
    Acceptor.receive cr c env s b = Acceptor.receive cr c env s b' := by
  obtain ⟨v, x, d, d', hv, hb, hb', hs⟩ := h
  have h1 := hs "authid" (by simp)
  have h2 := hs "authmethods" (by simp)
  have h3 := hs "authextra" (by simp)
  simp only [Acceptor.receive, hello_read c hv hb, hello_read c hv hb']
  cases x.asStr? with
  | none => rfl
  | some r =>
    simp only [Res.ofOption, Res.bind_ok, parseHello, GoMap.sliceOrEmpty, GoMap.mapOrEmpty, GoMap.text, GoMap.get, h1, h2, h3]
    cases anysToStrings (match (dget d' (str "authmethods")).bind Val.asSlice? with | some l => l.getD [] | none => []) <;> rfl

private theorem welcome_parse (v x : Val) (d : Dict) :
    parse .welcome [v, x, .map d] = (Res.ofOption (asUInt64 x)).map fun n => .welcome n (some d) := by
  simp only [parse, validateMessage, Kind.vspec, List.length_cons, List.length_nil, runValidators, Vd.run, validateID, validateMap, item,
    Res.orPanic]
  cases h : asUInt64 x <;> simp [Res.ofOption, Res.map, Res.bind, Val.asMap?, h]

private theorem challenge_parse (v x : Val) (d : Dict) :
    parse .challenge [v, x, .map d] = (Res.ofOption x.asStr?).map fun n => .challenge n (some d) := by
  simp only [parse, validateMessage, Kind.vspec, List.length_cons, List.length_nil, runValidators, Vd.run, validateString, validateMap, item,
    Res.orPanic]
  cases h : x.asStr? <;> simp [Res.ofOption, Res.map, Res.bind, Val.asMap?, h]

/-- **C152.** A WELCOME may contain any further details: the client ends up with the same session details. -/
theorem C152_welcome (c : Codec) (a : Joiner.Auth) (s : Joiner.State) {b b' : Str}
    (h : sameBut c 2 ["authid", "authrole", "authmethod", "roles"] b b') : Joiner.receive c a s b = Joiner.receive c a s b' := by
  obtain ⟨v, x, d, d', hv, hb, hb', hs⟩ := h
  have h1 := hs "authid" (by simp)
  have h2 := hs "authrole" (by simp)
  have h3 := hs "authmethod" (by simp)
  have h4 := hs "roles" (by simp)
  have e : ∀ (b : Str) (d : Dict), c.dec b = some [v, x, .map d] → c.deserialize b = (Res.ofOption (asUInt64 x)).map fun n => .welcome n (some d) := by
    intro b d hb
    rw [deserialize_of c hb hv (k := .welcome) rfl, welcome_parse]
    cases hx : asUInt64 x with
    | none => rfl
    | some n => simp [Res.ofOption, Msg.kind, welcome_parse, hx]
  simp only [Joiner.receive, e b d hb, e b' d' hb']
  cases asUInt64 x with
  | none => rfl
  | some n =>
    simp only [Res.ofOption, Res.map_ok, Joiner.recv, Joiner.recvWelcome, GoMap.get, GoMap.text, h1, h2, h3, h4]

/-- **C152.** A CHALLENGE may contain any further details: the built-in authenticators answer as if they were not there. -/
theorem C152_challenge (cr : Crypto) (c : Codec) (ca : ClientAuth) (s : Joiner.State) {b b' : Str}
    (h : sameBut c 4 ["challenge", "salt", "iterations", "keylen"] b b') :
    Joiner.receive c (ca.toAuth cr) s b = Joiner.receive c (ca.toAuth cr) s b' := by
  obtain ⟨v, x, d, d', hv, hb, hb', hs⟩ := h
  have h1 := hs "challenge" (by simp)
  have h2 := hs "salt" (by simp)
  have h3 := hs "iterations" (by simp)
  have h4 := hs "keylen" (by simp)
  have e : ∀ (b : Str) (d : Dict), c.dec b = some [v, x, .map d] → c.deserialize b = (Res.ofOption x.asStr?).map fun n => .challenge n (some d) := by
    intro b d hb
    rw [deserialize_of c hb hv (k := .challenge) rfl, challenge_parse]
    cases hx : x.asStr? with
    | none => rfl
    | some n => simp [Res.ofOption, Msg.kind, challenge_parse, hx]
  have ha : ca.authenticate cr (some d) = ca.authenticate cr (some d') := by
    cases ca with
    | anonymous => rfl
    | ticket => rfl
    | cra i ex sec =>
      have t1 : GoMap.text (some d) (str "challenge") = GoMap.text (some d') (str "challenge") := by simp only [GoMap.text, GoMap.get, h1]
      have t2 : GoMap.text (some d) (str "salt") = GoMap.text (some d') (str "salt") := by simp only [GoMap.text, GoMap.get, h2]
      have t3 : GoMap.get (some d) (str "iterations") = GoMap.get (some d') (str "iterations") := h3
      have t4 : GoMap.get (some d) (str "keylen") = GoMap.get (some d') (str "keylen") := h4
      show craAuthenticate cr sec ex (some d) = craAuthenticate cr sec ex (some d')
      unfold craAuthenticate
      rw [t1, t2, t3, t4]
    | cryptosign i ex sd => simp only [ClientAuth.authenticate, GoMap.get, GoMap.text, h1]
  simp only [Joiner.receive, e b d hb, e b' d' hb']
  cases x.asStr? with
  | none => rfl
  | some n => simp only [Res.ofOption, Res.map_ok, Joiner.recv, ClientAuth.toAuth, ha]

/-- Two HELLOs in MsgPack: `[1, "r", {"agent": "x", "authid": "joe"}]` and `[1, "r", {"authid": "joe", "roles": []}]`. -/
example : sameBut (MsgPack.codec id) 1 ["authid", "authmethods", "authextra"]
    ([0x93, 1, 0xa1, 0x72, 0x82, 0xa5] ++ str "agent" ++ [0xa1, 0x78, 0xa6] ++ str "authid" ++ [0xa3] ++ str "joe")
    ([0x93, 1, 0xa1, 0x72, 0x82, 0xa6] ++ str "authid" ++ [0xa3] ++ str "joe" ++ [0xa5] ++ str "roles" ++ [0x90]) := by
  refine ⟨.int .i8 1, .str (str "r"), [(str "agent", .str (str "x")), (str "authid", .str (str "joe"))],
    [(str "authid", .str (str "joe")), (str "roles", .arr [])], rfl, ?_, ?_, ?_⟩
  · set_option maxRecDepth 20000 in rfl
  · set_option maxRecDepth 20000 in rfl
  intro k hk
  simp only [List.mem_cons, List.not_mem_nil, or_false] at hk
  rcases hk with rfl | rfl | rfl <;> rfl

end Wamp
