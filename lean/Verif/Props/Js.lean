import Verif.Proofs.JsCut
import Verif.Props.RoundTrip
/-!
# C89–C92: JavaScript and C++ talking to each other

`serializeCall` and `parse` of the JavaScript library against the binary marshaller and unmarshaller of the C++ library.
-/
namespace Frpc
namespace Js
open BinMarshaller Spec
open BinUnMarshaller hiding init
open TreeBuilder (Cfg getData)

/-! ## C89: calls from JavaScript -/

theorem call_header (H : Host) (version : Nat) (hv : version = 2 ∨ version = 3) (hints : Hints) (method : Bytes) (data : Js) :
    serializeCall H version hints method data =
      packMagic (verOf version) ++ ([dataType T_CALL 0] ++ ([UInt8.ofNat method.length] ++ (method ++ stored ((serialize H version hints [] data).drop 2)))) := by
  unfold serializeCall
  simp only [stored_append, stored_codes]
  rcases hv with rfl | rfl <;> simp [stored, packMagic, verOf, dataType, T_CALL]

/-- The writes of a call whose arguments are written. -/
theorem call_bytes {H : Host} {strOk : Bytes → Bool} {version : Nat} (hv : version = 2 ∨ version = 3) {hints : Hints} {method : Bytes}
    (hm : 1 ≤ method.length ∧ method.length ≤ 255) {args : List Js} (hc : args.length < 256) (hb : hintAt hints [] ≠ some .binary)
    {vs : List Value} (h : Writes strOk (verOf version) (feedItems vs) (serializeItems H version hints [] 0 args)) :
    ∃ ws, sendCall strOk (verOf version) method vs = (ws, none) ∧ serializeCall H version hints method (.arr args) = ws.flatten := by
  obtain ⟨ws, hr, he⟩ := h
  have hp : pack strOk (verOf version) (.packMethodCall method) =
      ([packMagic (verOf version), [dataType T_CALL 0], [UInt8.ofNat method.length], method], none) := by
    have hc : (decide (method.length > 255) || method.length == 0) = false := by
      rw [Bool.or_eq_false_iff]; exact ⟨decide_eq_false (by omega), beq_eq_false_iff_ne.2 (by omega)⟩
    simp only [pack, hc]; rfl
  refine ⟨_, by unfold sendCall; rw [run_cons _ _ _ _ _ hp, hr], ?_⟩
  rw [call_header H version hv, serialize, getHint_eq, if_neg hb]
  have hl := encodeInt_length 0 args.length (by omega) (.inl rfl)
  have hd : (header 11 args.length ++ serializeItems H version hints [] 0 args).drop 2 = serializeItems H version hints [] 0 args := by
    unfold header
    generalize encodeInt args.length = l at *
    match l, hl with
    | [x], _ => rfl
  rw [hd, he]
  simp

/-- **C89 (partial).** A call made by JavaScript's `serializeCall` at version 2 or 3 is received by a C++ server (without validation of
date-times), however the bytes are divided, as the method of that name with arguments that stand for those given.
Missing (each shown false below): more than 255 arguments; at version 3 negative integers; numbers that are not integers where there is no hint; doubles of
2^-1022 to 2^-971; doubles whose logarithm the host does not get right; dates that are not whole seconds from 1970 on; version 1. -/
theorem C89_call_received_partial (H : Host) (cfg : Cfg) (hcfg : cfg.mktime = none) (version : Nat) (hv : version = 2 ∨ version = 3) (hints : Hints)
    (method : Bytes) (hm : 1 ≤ method.length ∧ method.length ≤ 255) (args : List Js) (hc : args.length < 256)
    (hb : hintAt hints [] ≠ some .binary) (hs : JsSendable H cfg.strOk version hints [] (.arr args))
    (ps : List Bytes) (hps : ps.flatten = serializeCall H version hints method (.arr args)) :
    ∃ tb vs, receive cfg .call ps = .ok tb ∧ tb.methodName = method ∧ getData tb = .ok (.array vs) ∧ MeansItems hints [] 0 args vs := by
  rw [JsSendable, if_neg hb] at hs
  obtain ⟨vs, hraw, hw, _, hwr⟩ := serialize_rawItems args [] 0 hs.2
  obtain ⟨ws, h1, h2⟩ := call_bytes hv hm hc hb hwr
  obtain ⟨ws', h3, h4⟩ := call_received cfg (verOf version) (verOf_known version) method hm vs hw
  rw [h1] at h3
  cases h3
  obtain ⟨tb, t1, t2, t3⟩ := h4 ps (by rw [hps, h2])
  exact ⟨tb, _, t1, t2, t3, received_meansItems hcfg args [] 0 vs hs.2 hraw⟩

/-- A host whose logarithm is exact. -/
def exactHost : Host := ⟨fun m e => (Nat.log2 m : Int) + e, id, fun ms => ⟨ms, 0, 1970, 0, 1, 4, 0, 0, 0⟩⟩

/-- The hints of the example: the second argument's member `x` is a float. -/
def sampleHints : Hints := .table fun p => if p = asc "1.x" then some .float else none

/-- The arguments of the example: a negative integer, an object with a hinted number, a string and an array, a date. -/
def sampleArgs : List Js :=
  [.int (-300), .obj [(asc "x", .int 3), (asc "a", .arr [.null, .bool true, .str [0xC3, 0xA9]])],
   .date ⟨1700000000000, -60, 2023, 10, 14, 2, 23, 13, 20⟩, .float (.fin true (2 ^ 52 + 1) (-52))]

theorem sample_sendable : JsSendable exactHost plainCfg.strOk 2 sampleHints [] (.arr sampleArgs) := by
  have hn : ∀ p : List Bytes, (p.intersperse (asc ".")).flatten ≠ asc "1.x" → hintAt sampleHints p = none := by
    intro p hp
    unfold hintAt sampleHints
    simp only [if_neg hp]
  have h1 : hintAt sampleHints ([] ++ [dec 1] ++ [asc "x"]) = some .float := by
    have : (([] ++ [dec 1] ++ [asc "x"] : List Bytes).intersperse (asc ".")).flatten = asc "1.x" := by decide +kernel
    unfold hintAt sampleHints
    simp only [this, if_true]
  have h0 : hintAt sampleHints [] ≠ some .binary := by rw [hn [] (by decide)]; decide
  have h2 : hintAt sampleHints ([] ++ [dec 0]) = none := hn _ (by decide +kernel)
  have h3 : hintAt sampleHints ([] ++ [dec 1] ++ [asc "a"]) = none := hn _ (by decide +kernel)
  rw [JsSendable, if_neg h0]
  refine ⟨by decide, ?_⟩
  unfold sampleArgs
  simp only [JsSendableItems, JsSendable, JsSendableMembers, h1, h2, h3]
  refine ⟨⟨by decide, by decide⟩, ⟨by decide, by decide, ⟨by decide, ⟨by decide, ?_⟩, by decide, ⟨by decide, ?_⟩, trivial⟩⟩, ?_, ?_, trivial⟩
  · simp only [if_true]
    right
    decide +kernel
  · simp [plainCfg]
  · exact ⟨by decide, by decide, by decide, ⟨-4, by decide, by decide, by decide⟩, by decide, by decide, by decide, by decide, by decide, by decide, by decide⟩
  · exact ⟨0xbff0000000000001#64, by decide +kernel, .inr ⟨by decide, rfl⟩⟩

/-- What the server has in the example: the members are in the order of their names, 3 is a double. -/
example : ∀ ps, ps.flatten = serializeCall exactHost 2 sampleHints (asc "m") (.arr sampleArgs) →
    ∃ tb vs, receive plainCfg .call ps = .ok tb ∧ tb.methodName = asc "m" ∧ getData tb = .ok (.array vs) ∧ MeansItems sampleHints [] 0 sampleArgs vs :=
  C89_call_received_partial exactHost plainCfg rfl 2 (.inl rfl) sampleHints (asc "m") (by decide) sampleArgs (by decide)
    (by decide +kernel) sample_sendable

example : (serializeCall exactHost 2 .none (asc "m") (.arr [.int (-300), .str (asc "x")])) =
    [0xCA, 0x11, 2, 1, 0x68, 1, 109, 0x41, 0x2c, 0x01, 0x20, 1, 120] := by decide +kernel

/-- What the server gets of one integer argument. -/
theorem negative_bytes (n : Int) (h0 : n < 0) (hn : n.natAbs < 2 ^ 52) :
    stored (serializeInt 3 (n < 0) n.natAbs) = (packInt ⟨3, 0⟩ (n - 1)).flatten := by
  unfold serializeInt packInt
  rw [if_pos rfl, if_pos (by decide)]
  have hz : zigzagEncode (n - 1) = 2 * n.natAbs + 1 := by rw [zigzagEncode_neg (by omega) (by omega)]; omega
  have hb : encodeZigzag (decide (n < 0)) n.natAbs = encodeInt (2 * n.natAbs + 1) := by
    unfold encodeZigzag; rw [if_pos (by simpa using h0)]
  rw [hb]
  simp only [hz]
  rw [i64_small (by omega)]
  exact header_eq ⟨3, 0⟩ (by decide) (t := 1) (by decide) (2 * n.natAbs + 1) (by omega)

/-- **C89 is false of negative integers at version 3**: every one of them arrives as one less (-1 as -2). -/
theorem C89_negative_violated (H : Host) (cfg : Cfg) (method : Bytes) (hm : 1 ≤ method.length ∧ method.length ≤ 255)
    (n : Int) (h0 : n < 0) (hn : n.natAbs < 2 ^ 52) (ps : List Bytes) (hps : ps.flatten = serializeCall H 3 .none method (.arr [.int n])) :
    ∃ tb, receive cfg .call ps = .ok tb ∧ tb.methodName = method ∧ getData tb = .ok (.array [.int (n - 1)]) := by
  have hw : Writes cfg.strOk (verOf 3) (feedItems [.int (n - 1)]) (serializeItems H 3 .none [] 0 [.int n]) := by
    refine ⟨packInt ⟨3, 0⟩ (n - 1), ?_, ?_⟩
    · simp only [feedItems, feed, List.append_nil]
      exact run_one rfl
    · simp only [serializeItems, serialize, getHint, List.append_nil]
      exact negative_bytes n h0 hn
  obtain ⟨ws, h1, h2⟩ := call_bytes (.inr rfl) hm (by simp) (by simp [hintAt]) hw
  obtain ⟨ws', h3, h4⟩ := call_received cfg (verOf 3) (verOf_known 3) method hm [.int (n - 1)]
    ⟨⟨by unfold IsI64; omega, fun h => absurd h (by decide)⟩, trivial⟩
  rw [h1] at h3
  cases h3
  obtain ⟨tb, t1, t2, t3⟩ := h4 ps (by rw [hps, h2])
  refine ⟨tb, t1, t2, ?_⟩
  rw [t3]
  simp [receivedItems, received]

/-- **C89 is false of numbers that are not integers, without a hint**: 1.5 arrives as the integer 1 at version 2, as the integer -2 at
version 3. -/
theorem C89_fraction_violated :
    (getData <$> receive plainCfg .call [serializeCall exactHost 2 .none (asc "m") (.arr [.num (.fin false 3 (-1))])] = .ok (.ok (.array [.int 1]))) ∧
    (getData <$> receive plainCfg .call [serializeCall exactHost 3 .none (asc "m") (.arr [.num (.fin false 3 (-1))])] = .ok (.ok (.array [.int (-2)]))) := by
  have h2 : serializeCall exactHost 2 .none (asc "m") (.arr [.num (.fin false 3 (-1))]) = [0xCA, 0x11, 2, 1, 0x68, 1, 109, 0x38, 1] := by decide +kernel
  have h3 : serializeCall exactHost 3 .none (asc "m") (.arr [.num (.fin false 3 (-1))]) = [0xCA, 0x11, 3, 0, 0x68, 1, 109, 0x08, 3] := by decide +kernel
  rw [h2, h3]
  exact ⟨rfl, rfl⟩

/-- **C89 is false of numbers that are not finite, without a hint**: not-a-number and both infinities arrive as the integer 0; at version 2
they are sent as a positive or negative zero, at version 3 as a zero. -/
theorem C89_infinite_violated :
    (∀ x ∈ [Number.nan, .inf false, .inf true], ∀ version ∈ [2, 3],
      getData <$> receive plainCfg .call [serializeCall exactHost version .none (asc "m") (.arr [.num x])] = .ok (.ok (.array [.int 0]))) ∧
    (serialize exactHost 2 .none [] (.num (.inf false)) = [0x38, 0] ∧ serialize exactHost 2 .none [] (.num (.inf true)) = [0x40, 0] ∧
      serialize exactHost 2 .none [] (.num .nan) = [0x40, 0] ∧ ∀ x ∈ [Number.nan, .inf false, .inf true], serialize exactHost 3 .none [] (.num x) = [0x08, 0]) := by
  have h2n : serializeCall exactHost 2 .none (asc "m") (.arr [.num .nan]) = [0xCA, 0x11, 2, 1, 0x68, 1, 109, 0x40, 0] := by decide +kernel
  have h2p : serializeCall exactHost 2 .none (asc "m") (.arr [.num (.inf false)]) = [0xCA, 0x11, 2, 1, 0x68, 1, 109, 0x38, 0] := by decide +kernel
  have h2m : serializeCall exactHost 2 .none (asc "m") (.arr [.num (.inf true)]) = [0xCA, 0x11, 2, 1, 0x68, 1, 109, 0x40, 0] := by decide +kernel
  have h3n : serializeCall exactHost 3 .none (asc "m") (.arr [.num .nan]) = [0xCA, 0x11, 3, 0, 0x68, 1, 109, 0x08, 0] := by decide +kernel
  have h3p : serializeCall exactHost 3 .none (asc "m") (.arr [.num (.inf false)]) = [0xCA, 0x11, 3, 0, 0x68, 1, 109, 0x08, 0] := by decide +kernel
  have h3m : serializeCall exactHost 3 .none (asc "m") (.arr [.num (.inf true)]) = [0xCA, 0x11, 3, 0, 0x68, 1, 109, 0x08, 0] := by decide +kernel
  refine ⟨?_, rfl, rfl, rfl, ?_⟩
  · intro x hx v hv
    simp only [List.mem_cons, List.not_mem_nil, or_false] at hx hv
    rcases hx with rfl | rfl | rfl <;> rcases hv with rfl | rfl
    · rw [h2n]; rfl
    · rw [h3n]; rfl
    · rw [h2p]; rfl
    · rw [h3p]; rfl
    · rw [h2m]; rfl
    · rw [h3m]; rfl
  · intro x hx
    simp only [List.mem_cons, List.not_mem_nil, or_false] at hx
    rcases hx with rfl | rfl | rfl <;> rfl

/-- The exception of a result. -/
def errorOf {α} : Except Err α → Option Err
  | .ok _ => none
  | .error e => some e

/-- **C89 is false of more than 255 arguments**: of the length of the array two bytes are taken away, the rest is left in front of the
arguments; 256 times null is refused by the server. -/
theorem C89_many_violated :
    receive plainCfg .call [serializeCall exactHost 2 .none (asc "m") (.arr (List.replicate 256 .null))] = .error .stream := by
  have h : serializeCall exactHost 2 .none (asc "m") (.arr (List.replicate 256 .null)) =
    [0xCA, 0x11, 2, 1, 0x68, 1, 109, 1] ++ List.replicate 256 0x60 := by decide +kernel
  rw [h]
  have he : errorOf (receive plainCfg .call [[0xCA, 0x11, 2, 1, 0x68, 1, 109, 1] ++ List.replicate 256 0x60]) = some .stream := by decide +kernel
  generalize receive plainCfg .call [[0xCA, 0x11, 2, 1, 0x68, 1, 109, 1] ++ List.replicate 256 0x60] = r at *
  cases r with
  | ok _ => cases he
  | error e => cases he; rfl

/-- ... and 4096 times null arrives as a call with 4096 arguments of which the first is `false`: the byte left is taken for one. -/
example : (serializeCall exactHost 2 .none (asc "m") (.arr (List.replicate 4096 .null))).take 10 = [0xCA, 0x11, 2, 1, 0x68, 1, 109, 0x10, 0x60, 0x60] := by
  decide +kernel

/-- **C89 is false of small doubles**: of a number of 2^-1022 to 2^-971 the fraction is lost, it arrives as the power of two below it. -/
theorem C89_tiny_violated (H : Host) (fr ex : Nat) (neg : Bool) (hf : fr < 2 ^ 52) (h1 : 1 ≤ ex) (h2 : ex < 52)
    (hl : H.lg (2 ^ 52 + fr) ((ex : Int) - 1075) = (ex : Int) - 1023) :
    ∃ sent got : BitVec 64, ieee sent = .fin neg (2 ^ 52 + fr) ((ex : Int) - 1075) ∧ ieee got = .fin neg (2 ^ 52) ((ex : Int) - 1075) ∧
      stored (encodeDouble H (ieee sent)) = leBytes 8 got.toNat := by
  obtain ⟨a, ha⟩ := pattern_exists (fr := fr) (ex := ex) (neg := neg) hf (by omega)
  obtain ⟨b, hb⟩ := pattern_exists (fr := 0) (ex := ex) (neg := neg) (by omega) (by omega)
  have ea := ieee_normal hf (by omega) (by omega) ha
  have eb := ieee_normal (fr := 0) (by omega) (by omega) (by omega) hb
  refine ⟨a, b, ea, eb, ?_⟩
  have hs : scaled (2 ^ 52 + fr) ((ex : Int) - 1075) 1074 ≥ 2 ^ 52 := by
    unfold scaled floorOf
    rw [if_pos (by omega)]
    have := Nat.pow_pos (n := ((ex : Int) - 1075 + 1074).toNat) (show 0 < 2 from by omega)
    calc 2 ^ 52 ≤ (2 ^ 52 + fr) * 1 := by omega
      _ ≤ _ := Nat.mul_le_mul_left _ this
  rw [ea, encodeDouble, if_neg (by omega), if_pos hs]
  have hmin : min ((ex : Int) - 1023) 1023 = (ex : Int) - 1023 := by omega
  simp only [hl, hmin]
  rw [if_pos (by omega), show (ex : Int) - 1023 + 1023 = (ex : Int) from by omega, hb]
  exact pack_parts 0 ex neg (by omega) (by omega)

/-- **C89 is false of doubles whose logarithm the host rounds up** (those just below a power of two, when `Math.log` gives the logarithm of that
power): the greatest double below a power of two arrives as the greatest below the next one, twice as much. -/
theorem C89_logarithm_violated (H : Host) (ex : Nat) (neg : Bool) (h1 : 52 ≤ ex) (h2 : ex < 2046)
    (hl : H.lg (2 ^ 53 - 1) ((ex : Int) - 1075) = (ex : Int) - 1022) :
    ∃ sent got : BitVec 64, ieee sent = .fin neg (2 ^ 53 - 1) ((ex : Int) - 1075) ∧ ieee got = .fin neg (2 ^ 53 - 1) ((ex : Int) - 1074) ∧
      stored (encodeDouble H (ieee sent)) = leBytes 8 got.toNat := by
  obtain ⟨a, ha⟩ := pattern_exists (fr := 2 ^ 52 - 1) (ex := ex) (neg := neg) (by omega) (by omega)
  obtain ⟨b, hb⟩ := pattern_exists (fr := 2 ^ 52 - 1) (ex := ex + 1) (neg := neg) (by omega) (by omega)
  have ea := ieee_normal (fr := 2 ^ 52 - 1) (by omega) (by omega) (by omega) ha
  have eb := ieee_normal (fr := 2 ^ 52 - 1) (by omega) (by omega) (by omega) hb
  rw [show 2 ^ 52 + (2 ^ 52 - 1) = 2 ^ 53 - 1 from rfl] at ea eb
  refine ⟨a, b, ea, by rw [eb, show ((ex + 1 : Nat) : Int) - 1075 = (ex : Int) - 1074 from by omega], ?_⟩
  have hs : scaled (2 ^ 53 - 1) ((ex : Int) - 1075) 1074 ≥ 2 ^ 52 := by
    unfold scaled floorOf
    rw [if_pos (by omega)]
    have := Nat.pow_pos (n := ((ex : Int) - 1075 + 1074).toNat) (show 0 < 2 from by omega)
    calc 2 ^ 52 ≤ (2 ^ 53 - 1) * 1 := by omega
      _ ≤ _ := Nat.mul_le_mul_left _ this
  have hsc : ((scaled (2 ^ 53 - 1) ((ex : Int) - 1075) (53 - ((ex : Int) - 1022)) : Nat) : Int) - 2 ^ 53 = -1 := by
    unfold scaled floorOf
    rw [show (ex : Int) - 1075 + (53 - ((ex : Int) - 1022)) = 0 from by omega, if_pos (by omega)]
    rfl
  have hmin : min ((ex : Int) - 1022) 1023 = (ex : Int) - 1022 := by omega
  have hfb : fractionBits (-1) = bitsOf 52 ((2 ^ 52 - 1 : Nat) : Int) := by decide +kernel
  rw [ea, encodeDouble, if_neg (by omega), if_pos hs]
  simp only [hl, hmin]
  rw [if_neg (by omega), hsc, hfb, show (ex : Int) - 1022 + 1023 = ((ex + 1 : Nat) : Int) from by omega, hb]
  exact pack_parts (2 ^ 52 - 1) (ex + 1) neg (by omega) (by omega)

/-- **C89 is false of dates that are not whole seconds**: half a second is rounded up, and the time stamp is one second ahead of the fields. -/
theorem C89_date_violated :
    getData <$> receive plainCfg .call [serializeCall exactHost 2 .none (asc "m") (.arr [.date ⟨1700000000500, -60, 2023, 10, 14, 2, 23, 13, 20⟩])] =
      .ok (.ok (.array [.dateTime { dateOf ⟨1700000000500, -60, 2023, 10, 14, 2, 23, 13, 20⟩ with unixTime := 1700000001 }])) := by
  have h : serializeCall exactHost 2 .none (asc "m") (.arr [.date ⟨1700000000500, -60, 2023, 10, 14, 2, 23, 13, 20⟩]) =
    [0xCA, 0x11, 2, 1, 0x68, 1, 109, 0x28, 0xfc, 1, 241, 83, 101, 162, 154, 235, 246, 52] := by decide +kernel
  rw [h]
  rfl

/-- **C89 is false at version 1**: what `serializeCall` writes for a string is refused by every reader of version 1. -/
theorem C89_version_1_violated :
    receive plainCfg .call [serializeCall exactHost 1 .none (asc "m") (.arr [.str (asc "x")])] = .error .stream := by
  have h : serializeCall exactHost 1 .none (asc "m") (.arr [.str (asc "x")]) = [0xCA, 0x11, 1, 0, 0x68, 1, 109, 0x20, 1, 120] := by decide +kernel
  rw [h]
  rfl

/-- The hypotheses about the logarithm are met: by the exact host, and by one that rounds up the logarithm of such a number. -/
example (fr ex : Nat) (hf : fr < 2 ^ 52) : exactHost.lg (2 ^ 52 + fr) ((ex : Int) - 1075) = (ex : Int) - 1023 := by
  show ((Nat.log2 (2 ^ 52 + fr) : Nat) : Int) + ((ex : Int) - 1075) = _
  rw [log2_normal hf]; omega
example : ∃ H : Host, ∀ ex : Nat, H.lg (2 ^ 53 - 1) ((ex : Int) - 1075) = (ex : Int) - 1022 := ⟨⟨fun _ e => e + 53, id, exactHost.date⟩, fun ex => by simp only; omega⟩

/-! ## C90: messages of C++ read by JavaScript -/

/-- The result of a response is what is read of its value. -/
theorem parse_response (H : Host) (buffers : Bool) (ver : Version) (body : Bytes) (v : Js) (rest : Bytes)
    (h : parseValue H ver.major.toNat buffers (2 * (packMagic ver ++ ([dataType T_RESPONSE 0] ++ body)).length) body = .ok (v, rest)) :
    parse H buffers (packMagic ver ++ ([dataType T_RESPONSE 0] ++ body)) = if rest = [] then .ok (.response v) else .error .error := by
  have hd : (dataType T_RESPONSE 0).toNat / 8 = 14 := by decide
  unfold packMagic at h ⊢
  simp only [List.cons_append, List.nil_append] at h ⊢
  unfold parse
  simp only [getByte, hd]
  rw [if_neg (by decide), if_neg (by decide), if_pos trivial, h]

/-- The bytes of a response that JavaScript can read, followed by anything. -/
theorem response_read (H : Host) (hH : Spec.Host.Faithful H) (buffers : Bool) (strOk : Bytes → Bool) (ver : Version) (hv : ver.Known) (h2 : 2 ≤ ver.major)
    (v : Value) (hheld : Held v) (hsmall : Small v) (hr : JsReadable ver.major.toNat v) (ws : List Bytes) (hsent : sendResponse strOk ver v = (ws, none)) (q : Bytes) :
    parse H buffers (ws.flatten ++ q) = if q = [] then .ok (.response (jsOf H buffers v)) else .error .error := by
  have hacc : (BinMarshaller.run strOk ver (feed v)).2 = none := by
    have : (sendResponse strOk ver v).2 = none := by rw [hsent]
    exact (run_one_none _ _ this).2
  obtain ⟨wv, h3, h4, h5⟩ := parse_value (buffers := buffers) hH hv h2 v (accepted h2 v hheld hsmall hacc) hr
  unfold sendResponse at hsent
  rw [run_cons _ _ _ _ [packMagic ver, [dataType T_RESPONSE 0]] rfl, h3] at hsent
  cases hsent
  have he : ([packMagic ver, [dataType T_RESPONSE 0]] ++ wv).flatten ++ q = packMagic ver ++ ([dataType T_RESPONSE 0] ++ (wv.flatten ++ q)) := by simp
  rw [he]
  exact parse_response H buffers ver (wv.flatten ++ q) _ q (h5 _ q (by simp only [List.length_append]; omega))

/-- **C90 (responses, partial).** A response that the C++ library makes at protocol 2.x or 3.x is read by JavaScript's `parse` as the value that stands for
the one sent.
Missing (shown false below, or outside of what JavaScript's numbers can hold): integers beyond 2^53 (2^52 at version 3), subnormal doubles, text that is not UTF-8 or starts with a
byte order mark, times before 1970, members named `__proto__`, protocol 1. -/
theorem C90_response_read_partial (H : Host) (hH : Spec.Host.Faithful H) (buffers : Bool) (strOk : Bytes → Bool) (ver : Version) (hv : ver.Known) (h2 : 2 ≤ ver.major)
    (v : Value) (hheld : Held v) (hsmall : Small v) (hr : JsReadable ver.major.toNat v) (ws : List Bytes) (hsent : sendResponse strOk ver v = (ws, none)) :
    parse H buffers ws.flatten = .ok (.response (jsOf H buffers v)) := by
  have := response_read H hH buffers strOk ver hv h2 v hheld hsmall hr ws hsent []
  simpa using this

/-- **C90 (faults).** A fault of the C++ library makes `parse` throw the error of its number and its text. -/
theorem C90_fault_read (H : Host) (hH : Spec.Host.Faithful H) (buffers : Bool) (strOk : Bytes → Bool) (ver : Version) (hv : ver.Known) (h2 : 2 ≤ ver.major)
    (code : Int) (hc : IsI32 code) (msg : Bytes) (hm : msg.length < 2 ^ 30) (hs : strOk msg = true) (ht : PlainText msg) :
    ∃ ws, sendFault strOk ver code msg = (ws, none) ∧ parse H buffers ws.flatten = .error (.fault (.int code) (.str msg)) := by
  have hp : pack strOk ver (.packFault code msg) =
      ([packMagic ver, [dataType T_FAULT 0]] ++ packInt ver code ++ (sized ver T_STRING msg.length ++ [msg]), none) := by
    simp only [pack, packString, hs, if_true]
  refine ⟨_, run_one hp, ?_⟩
  have he : ([packMagic ver, [dataType T_FAULT 0]] ++ packInt ver code ++ (sized ver T_STRING msg.length ++ [msg])).flatten =
      packMagic ver ++ ([dataType T_FAULT 0] ++ ((packInt ver code).flatten ++ ((sized ver T_STRING msg.length ++ [msg]).flatten ++ []))) := by simp
  rw [he]
  have hi := reads_int (H := H) (buffers := buffers) hv h2 code (by unfold IsI32 at hc; omega)
  have hstr := reads_string (H := H) (buffers := buffers) h2 hH msg hm ht
  have hd : (dataType T_FAULT 0).toNat / 8 = 15 := by decide
  have hl : ∀ f, f = 2 * (packMagic ver ++ ([dataType T_FAULT 0] ++ ((packInt ver code).flatten ++ ((sized ver T_STRING msg.length ++ [msg]).flatten ++ [])))).length →
      2 * (packInt ver code).flatten.length ≤ f + 1 ∧ 2 * (sized ver T_STRING msg.length ++ [msg]).flatten.length ≤ f + 1 := by
    intro f hf
    simp only [List.length_append] at hf ⊢
    omega
  unfold packMagic at hl ⊢
  simp only [List.cons_append, List.nil_append] at hl ⊢
  unfold parse
  simp only [getByte, hd]
  rw [if_neg (by decide), if_pos trivial, hi _ _ (hl _ rfl).1]
  simp only
  rw [hstr _ _ (hl _ rfl).2]

/-- The parameters of a call are read until the end. -/
theorem params_read {H : Host} {buffers : Bool} {strOk : Bytes → Bool} {ver : Version} (hH : Spec.Host.Faithful H) (hv : ver.Known) (h2 : 2 ≤ ver.major) :
    ∀ vs, WireOkItems strOk ver vs → JsReadableItems ver.major.toNat vs →
    ∃ ws, run strOk ver (feedItems vs) = (ws, none) ∧ ∀ fuel, 2 * ws.flatten.length < fuel →
      parseParams H ver.major.toNat buffers fuel ws.flatten = .ok (jsOfItems H buffers vs)
  | [], _, _ => ⟨[], rfl, fun fuel hf => by
      obtain ⟨f, rfl⟩ : ∃ f, fuel = f + 1 := ⟨fuel - 1, by omega⟩
      rw [jsOfItems]; simp [parseParams]⟩
  | v :: vs, hw, hr => by
    rw [WireOkItems] at hw
    rw [JsReadableItems] at hr
    obtain ⟨w1, r1, n1, p1⟩ := parse_value (buffers := buffers) hH hv h2 v hw.1 hr.1
    obtain ⟨w2, r2, p2⟩ := params_read (H := H) (buffers := buffers) hH hv h2 vs hw.2 hr.2
    refine ⟨w1 ++ w2, by rw [feedItems, run_append strOk ver _ _ w1 r1, r2], fun fuel hf => ?_⟩
    rw [List.flatten_append, List.length_append] at hf
    obtain ⟨f, rfl⟩ : ∃ f, fuel = f + 1 := ⟨fuel - 1, by omega⟩
    rw [List.flatten_append, jsOfItems, parseParams, if_neg (by intro hc; rw [List.append_eq_nil_iff] at hc; rw [hc.1] at n1; simp at n1), p1 f _ (by omega)]
    simp only
    rw [p2 f (by omega)]

/-- The bytes of a call that JavaScript can read. -/
theorem call_read {H : Host} (hH : Spec.Host.Faithful H) {buffers : Bool} {strOk : Bytes → Bool} {ver : Version} (hv : ver.Known) (h2 : 2 ≤ ver.major)
    {name : Bytes} (hn : 1 ≤ name.length ∧ name.length ≤ 255) (ht : PlainText name) {args : List Value} (hw : WireOkItems strOk ver args)
    (hr : JsReadableItems ver.major.toNat args) {ws : List Bytes} (hsent : sendCall strOk ver name args = (ws, none)) :
    parse H buffers ws.flatten = .ok (.call name (jsOfItems H buffers args)) := by
  obtain ⟨wa, h3, h5⟩ := params_read (H := H) (buffers := buffers) hH hv h2 args hw hr
  have hp : pack strOk ver (.packMethodCall name) = ([packMagic ver, [dataType T_CALL 0], [UInt8.ofNat name.length], name], none) := by
    have hc : (decide (name.length > 255) || name.length == 0) = false := by
      rw [Bool.or_eq_false_iff]; exact ⟨decide_eq_false (by omega), beq_eq_false_iff_ne.2 (by omega)⟩
    simp only [pack, hc]; rfl
  unfold sendCall at hsent
  rw [run_cons _ _ _ _ _ hp, h3] at hsent
  cases hsent
  have he : ([packMagic ver, [dataType T_CALL 0], [UInt8.ofNat name.length], name] ++ wa).flatten =
      packMagic ver ++ ([dataType T_CALL 0] ++ (UInt8.ofNat name.length :: (name ++ wa.flatten))) := by simp
  rw [he]
  have hd : (dataType T_CALL 0).toNat / 8 = 13 := by decide
  have hlen : (UInt8.ofNat name.length).toNat = name.length := by rw [UInt8.toNat_ofNat']; omega
  have hl : ∀ f, f = 2 * (packMagic ver ++ ([dataType T_CALL 0] ++ (UInt8.ofNat name.length :: (name ++ wa.flatten)))).length → 2 * wa.flatten.length < f := by
    intro f hf
    simp only [List.length_append, List.length_cons] at hf
    omega
  unfold packMagic at hl ⊢
  simp only [List.cons_append, List.nil_append] at hl ⊢
  unfold parse
  simp only [getByte, hd, hlen]
  rw [if_neg (by decide), if_neg (by decide), if_neg (by decide), if_pos trivial, decode_eq, hH name ht]
  simp only
  rw [if_neg (by intro hc; rw [hc] at hn; simp at hn), h5 _ (hl _ rfl)]

/-- **C90 (calls, partial).** A call that the C++ library makes at protocol 2.x or 3.x is read by `parse` as its method and the values that stand for its
arguments. Missing: as for responses. -/
theorem C90_call_read_partial (H : Host) (hH : Spec.Host.Faithful H) (buffers : Bool) (strOk : Bytes → Bool) (ver : Version) (hv : ver.Known) (h2 : 2 ≤ ver.major)
    (name : Bytes) (ht : PlainText name) (args : List Value) (hheld : HeldItems args) (hsmall : SmallItems args) (hr : JsReadableItems ver.major.toNat args)
    (ws : List Bytes) (hsent : sendCall strOk ver name args = (ws, none)) :
    parse H buffers ws.flatten = .ok (.call name (jsOfItems H buffers args)) := by
  have hrun : (BinMarshaller.run strOk ver (.packMethodCall name :: feedItems args)).2 = none := by
    have : (sendCall strOk ver name args).2 = none := by rw [hsent]
    exact this
  have hacc := run_one_none _ _ hrun
  have hname : 1 ≤ name.length ∧ name.length ≤ 255 := by
    have h2 := hacc.1
    simp only [pack] at h2
    by_cases hk : (decide (name.length > 255) || name.length == 0) = true
    · rw [if_pos hk] at h2; simp at h2
    · simp only [Bool.or_eq_true, decide_eq_true_eq, beq_iff_eq, not_or] at hk
      omega
  exact call_read hH hv h2 hname ht (acceptedItems h2 args hheld hsmall hacc.2) hr hsent

/-- A host whose decoder changes no text meets the hypothesis. -/
theorem exactHost_faithful : Spec.Host.Faithful exactHost := fun _ _ => rfl

/-- The value of the example. -/
def sampleReply : Value :=
  .struct [(asc "d", .double 0xbff8000000000000#64), (asc "l", .array [.int (-70000), .null, .binary [0, 255]]), (asc "s", .string (asc "hi")),
    (asc "t", .dateTime { (default : DateTime) with unixTime := 1700000000 })]

/-- ASCII is text. -/
theorem text_ascii : ∀ s : Bytes, (∀ b ∈ s, b.toNat < 128) → Text s
  | [], _ => .nil
  | b :: r, h => by
    have hb := h b (List.mem_cons_self ..)
    have hc : codePoint (b :: r) = some (b.toNat, 1) := by
      simp only [codePoint]
      rw [if_pos (by omega)]
    refine .cons hc (by omega) (by omega) ?_
    exact text_ascii r (fun x hx => h x (List.mem_cons_of_mem _ hx))

/-- ASCII is plain text. -/
theorem plain_ascii (s : Bytes) (h : ∀ b ∈ s, b.toNat < 128) : PlainText s := by
  refine ⟨text_ascii s h, fun ⟨q, hq⟩ => ?_⟩
  have := h 0xEF (by rw [← hq]; simp)
  revert this; decide

example : ∀ ws, sendResponse (fun _ => true) ⟨2, 1⟩ sampleReply = (ws, none) →
    parse exactHost false ws.flatten = .ok (.response (.obj [(asc "d", .num (.fin true (2 ^ 52 + 2 ^ 51) (-52))),
      (asc "l", .arr [.int (-70000), .null, .arr [.int 0, .int 255]]), (asc "s", .str (asc "hi")),
      (asc "t", .date (exactHost.date 1700000000000))])) := by
  intro ws hs
  have h := C90_response_read_partial exactHost exactHost_faithful false (fun _ => true) ⟨2, 1⟩ ⟨by decide, by decide⟩ (by decide) sampleReply
    (by simp [sampleReply, Held, HeldItems, HeldMembers, IsI64]; decide) (by simp [sampleReply, Small, SmallItems, SmallMembers]; decide)
    (by
      simp only [sampleReply, JsReadable, JsReadableItems, JsReadableMembers]
      refine ⟨by decide, ⟨plain_ascii _ (by decide), by decide⟩, by decide, ⟨plain_ascii _ (by decide), by decide⟩, ⟨by decide, trivial, trivial, trivial⟩,
        ⟨plain_ascii _ (by decide), by decide⟩, plain_ascii _ (by decide), ⟨plain_ascii _ (by decide), by decide⟩, by decide, trivial⟩) ws hs
  rw [h]
  have e : ieee 0xbff8000000000000#64 = .fin true (2 ^ 52 + 2 ^ 51) (-52) := by decide +kernel
  simp [sampleReply, jsOf, jsOfItems, jsOfMembers, e, byteArray]

/-- **C90 is false of subnormal doubles**: 2^-1023 is read as 0. -/
theorem C90_subnormal_violated (H : Host) (buffers : Bool) (strOk : Bytes → Bool) :
    ∃ b : BitVec 64, ieee b = .fin false (2 ^ 51) (-1074) ∧ ∃ ws, sendResponse strOk ⟨2, 1⟩ (.double b) = (ws, none) ∧
      parse H buffers ws.flatten = .ok (.response (.num (.fin false 0 (-1074)))) :=
  ⟨0x0008000000000000#64, by decide +kernel, _, rfl, rfl⟩

/-- **C90 is false of times before 1970**: at version 2.1 the last second of 1969 is read as one of the year 2106. -/
theorem C90_before_1970_violated (H : Host) (buffers : Bool) (strOk : Bytes → Bool) :
    ∃ ws, sendResponse strOk ⟨2, 1⟩ (.dateTime ⟨1969, 12, 31, 23, 59, 59, 3, -1, 0⟩) = (ws, none) ∧
      parse H buffers ws.flatten = .ok (.response (.date (H.date (1000 * (2 ^ 32 - 1))))) :=
  ⟨_, rfl, rfl⟩

/-- **C90 is false of negative integers at version 1**: -1 is read as 2^31 - 1. -/
theorem C90_version_1_violated (H : Host) (buffers : Bool) (strOk : Bytes → Bool) :
    ∃ ws, sendResponse strOk ⟨1, 0⟩ (.int (-1)) = (ws, none) ∧ parse H buffers ws.flatten = .ok (.response (.int (2 ^ 31 - 1))) :=
  ⟨_, rfl, rfl⟩

/-- **C90 is false of members named `__proto__`**: they are not there when the message has been read. -/
theorem C90_proto_violated (buffers : Bool) (strOk : Bytes → Bool) :
    ∃ ws, sendResponse strOk ⟨2, 1⟩ (.struct [(asc "__proto__", .null)]) = (ws, none) ∧ parse exactHost buffers ws.flatten = .ok (.response (.obj [])) :=
  ⟨_, rfl, rfl⟩

/-! ## C91: JavaScript reading its own calls -/

theorem readable_integer {b : BitVec 64} {n : Int} (h : IsInteger (ieee b) n) : b.toNat / 2 ^ 52 % 2048 ≠ 0 ∨ b.toNat % 2 ^ 52 = 0 := by
  obtain ⟨m, e, h1, h2, h3⟩ := h
  by_cases hx : b.toNat / 2 ^ 52 % 2048 = 0
  · right
    unfold ieee at h1
    simp only [hx] at h1
    rw [if_neg (by decide), if_pos trivial] at h1
    simp only [Number.fin.injEq] at h1
    obtain ⟨_, h4, h5⟩ := h1
    have h6 := h3 (by omega)
    rw [← h4, ← h5] at h6
    have hlt : b.toNat % 2 ^ 52 < 2 ^ 52 := Nat.mod_lt _ (by decide)
    rcases Nat.eq_zero_or_pos n.natAbs with h0 | h0
    · rw [h6, h0, Nat.zero_mul]
    · exfalso
      have h7 : 2 ^ 52 ≤ 2 ^ (-(-1074 : Int)).toNat := Nat.pow_le_pow_right (by omega) (by decide)
      have h8 : 2 ^ (-(-1074 : Int)).toNat ≤ n.natAbs * 2 ^ (-(-1074 : Int)).toNat := Nat.le_mul_of_pos_left _ h0
      omega
  · exact .inl hx

theorem readable_normal {b : BitVec 64} (h : NotSubnormal (ieee b)) : b.toNat / 2 ^ 52 % 2048 ≠ 0 ∨ b.toNat % 2 ^ 52 = 0 := by
  by_cases hx : b.toNat / 2 ^ 52 % 2048 = 0
  · right
    unfold ieee at h
    simp only [hx] at h
    rw [if_neg (by decide), if_pos trivial] at h
    have hlt : b.toNat % 2 ^ 52 < 2 ^ 52 := Nat.mod_lt _ (by decide)
    unfold NotSubnormal at h
    omega
  · exact .inl hx

mutual
theorem raw_echo (H : Host) (strOk : Bytes → Bool) (buffers : Bool) (version : Nat) (hints : Hints) : ∀ (js : Js) (path : List Bytes) (v : Value),
    JsSendable H strOk version hints path js → JsPlain version js → Raw hints path js v → JsReadable version v ∧ Echo H buffers hints path js (jsOf H buffers v)
  | .null, path, v, _, _, r => by rw [Raw] at r; subst r; simp [JsReadable, Echo, jsOf]
  | .bool b, path, v, _, _, r => by rw [Raw] at r; subst r; simp [JsReadable, Echo, jsOf]
  | .int n, path, v, h, hp, r => by
    rw [Raw] at r
    rw [JsSendable] at h
    rw [JsPlain] at hp
    rw [Echo]
    by_cases hf : hintAt hints path = some .float
    · rw [if_pos hf] at r ⊢
      obtain ⟨b, rfl, hb⟩ := r
      exact ⟨by rw [JsReadable]; exact readable_integer hb, _, by rw [jsOf], hb⟩
    · rw [if_neg hf] at r ⊢
      subst r
      exact ⟨by rw [JsReadable]; exact ⟨h.1, hp⟩, by rw [jsOf]⟩
  | .num x, path, v, h, hp, r => by
    rw [Raw] at r
    obtain ⟨_, b, rfl, hb⟩ := r
    rw [JsPlain] at hp
    rw [Echo, jsOf, JsReadable, hb]
    exact ⟨readable_normal (by rw [hb]; exact hp), rfl⟩
  | .float x, path, v, h, hp, r => by
    rw [Raw] at r
    obtain ⟨b, rfl, hb⟩ := r
    rw [JsPlain] at hp
    rw [Echo, jsOf, JsReadable, hb]
    exact ⟨readable_normal (by rw [hb]; exact hp), rfl⟩
  | .str s, path, v, h, hp, r => by
    rw [Raw] at r
    subst r
    rw [JsPlain] at hp
    rw [Echo, jsOf, JsReadable]
    exact ⟨hp, rfl⟩
  | .date d, path, v, h, hp, r => by
    rw [Raw] at r
    subst r
    rw [JsPlain] at hp
    rw [JsSendable] at h
    rw [Echo, jsOf, JsReadable]
    have h1 := h.whole
    have h2 := h.since
    have h3 := h.before
    refine ⟨⟨by simp only [dateOf]; omega, by simp only [dateOf]; omega, fun hv => by have := h3.2 hv; simp only [dateOf]; omega⟩, ?_⟩
    rw [show 1000 * (dateOf d).unixTime = d.ms from by simp only [dateOf]; omega]
  | .buffer s, path, v, h, hp, r => by
    rw [Raw] at r
    subst r
    rw [Echo, jsOf, JsReadable]
    · exact ⟨trivial, rfl⟩
    all_goals simp
  | .binary l, path, v, h, hp, r => by
    rw [Raw] at r
    obtain ⟨s, rfl, rfl⟩ := r
    rw [Echo, jsOf, JsReadable]
    · exact ⟨trivial, s, rfl, rfl⟩
    all_goals simp
  | .arr js, path, v, h, hp, r => by
    rw [Raw] at r
    rw [JsSendable] at h
    rw [JsPlain] at hp
    rw [Echo]
    by_cases hf : hintAt hints path = some .binary
    · rw [if_pos hf] at r h ⊢
      obtain ⟨s, rfl, rfl⟩ := r
      rw [jsOf, JsReadable]
      · exact ⟨trivial, s, rfl, rfl⟩
      all_goals simp
    · rw [if_neg hf] at r h ⊢
      obtain ⟨vs, rfl, hr⟩ := r
      obtain ⟨a, b⟩ := raw_echoItems H strOk buffers version hints js path 0 vs h.2 hp hr
      exact ⟨by rw [JsReadable]; exact a, _, by rw [jsOf], b⟩
  | .obj js, path, v, h, hp, r => by
    rw [Raw] at r
    rw [JsSendable] at h
    rw [JsPlain] at hp
    rw [Echo]
    obtain ⟨ms, rfl, hr⟩ := r
    obtain ⟨a, b⟩ := raw_echoMembers H strOk buffers version hints js path ms h.2.2 hp hr
    exact ⟨by rw [JsReadable, RawMembers.keys hr]; exact ⟨h.2.1, a⟩, _, by rw [jsOf], b⟩
theorem raw_echoItems (H : Host) (strOk : Bytes → Bool) (buffers : Bool) (version : Nat) (hints : Hints) : ∀ (js : List Js) (path : List Bytes) (i : Nat) (vs : List Value),
    JsSendableItems H strOk version hints path i js → JsPlainItems version js → RawItems hints path i js vs →
    JsReadableItems version vs ∧ EchoItems H buffers hints path i js (jsOfItems H buffers vs)
  | [], path, i, vs, _, _, r => by rw [RawItems] at r; subst r; simp [JsReadableItems, EchoItems, jsOfItems]
  | j :: js, path, i, vs, h, hp, r => by
    rw [RawItems] at r
    obtain ⟨w, ws, rfl, h1, h2⟩ := r
    rw [JsSendableItems] at h
    rw [JsPlainItems] at hp
    obtain ⟨a1, b1⟩ := raw_echo H strOk buffers version hints j _ w h.1 hp.1 h1
    obtain ⟨a2, b2⟩ := raw_echoItems H strOk buffers version hints js path _ ws h.2 hp.2 h2
    exact ⟨by rw [JsReadableItems]; exact ⟨a1, a2⟩, by rw [EchoItems, jsOfItems]; exact ⟨_, _, rfl, b1, b2⟩⟩
theorem raw_echoMembers (H : Host) (strOk : Bytes → Bool) (buffers : Bool) (version : Nat) (hints : Hints) : ∀ (js : List (Bytes × Js)) (path : List Bytes) (ms : List (Bytes × Value)),
    JsSendableMembers H strOk version hints path js → JsPlainMembers version js → RawMembers hints path js ms →
    JsReadableMembers version ms ∧ EchoMembers H buffers hints path js (jsOfMembers H buffers ms)
  | [], path, ms, _, _, r => by rw [RawMembers] at r; subst r; simp [JsReadableMembers, EchoMembers, jsOfMembers]
  | (k, j) :: js, path, ms, h, hp, r => by
    rw [RawMembers] at r
    obtain ⟨w, ws, rfl, h1, h2⟩ := r
    rw [JsSendableMembers] at h
    rw [JsPlainMembers] at hp
    obtain ⟨a1, b1⟩ := raw_echo H strOk buffers version hints j _ w h.2.1 hp.2.1 h1
    obtain ⟨a2, b2⟩ := raw_echoMembers H strOk buffers version hints js path ws h.2.2 hp.2.2 h2
    exact ⟨by rw [JsReadableMembers]; exact ⟨hp.1, a1, a2⟩, by rw [EchoMembers, jsOfMembers]; exact ⟨_, _, rfl, b1, b2⟩⟩
end

theorem verOf_both {version : Nat} (hv : version = 2 ∨ version = 3) : (verOf version).major.toNat = version ∧ 2 ≤ (verOf version).major := by
  rcases hv with rfl | rfl <;> decide

/-- **C91 (partial).** `parse` gives of a call made by `serializeCall`, at version 2 or 3, its method and its arguments.
Missing: what is missing in C89 and C90 (shown false there); at version 3 negative integers (below). -/
theorem C91_call_echo_partial (H : Host) (hH : Spec.Host.Faithful H) (buffers : Bool) (version : Nat) (hv : version = 2 ∨ version = 3) (hints : Hints)
    (method : Bytes) (hm : 1 ≤ method.length ∧ method.length ≤ 255) (ht : PlainText method) (args : List Js) (hc : args.length < 256)
    (hb : hintAt hints [] ≠ some .binary) (hs : JsSendable H (fun _ => true) version hints [] (.arr args)) (hp : JsPlainItems version args) :
    ∃ rs, parse H buffers (serializeCall H version hints method (.arr args)) = .ok (.call method rs) ∧ EchoItems H buffers hints [] 0 args rs := by
  rw [JsSendable, if_neg hb] at hs
  obtain ⟨vs, hraw, hw, _, hwr⟩ := serialize_rawItems args [] 0 hs.2
  obtain ⟨ws, h1, h2⟩ := call_bytes hv hm hc hb hwr
  obtain ⟨hr, he⟩ := raw_echoItems H (fun _ => true) buffers version hints args [] 0 vs hs.2 hp hraw
  obtain ⟨m1, m2⟩ := verOf_both hv
  refine ⟨_, ?_, he⟩
  rw [h2]
  exact call_read hH (verOf_known version) m2 hm ht hw (by rw [m1]; exact hr) h1

/-- The hypotheses are met by the arguments of the example of C89. -/
example : ∃ rs, parse exactHost true (serializeCall exactHost 2 sampleHints (asc "m") (.arr sampleArgs)) = .ok (.call (asc "m") rs) ∧
    EchoItems exactHost true sampleHints [] 0 sampleArgs rs :=
  C91_call_echo_partial exactHost exactHost_faithful true 2 (.inl rfl) sampleHints (asc "m") (by decide) (plain_ascii _ (by decide)) sampleArgs (by decide)
    (by decide +kernel) sample_sendable (by
      unfold sampleArgs
      simp only [JsPlainItems, JsPlain, JsPlainMembers, NotSubnormal]
      refine ⟨by decide, ⟨⟨plain_ascii _ (by decide), by decide⟩, by decide, ⟨plain_ascii _ (by decide), by decide⟩, ⟨trivial, trivial, ?_, trivial⟩, trivial⟩,
        by decide, by decide, trivial⟩
      refine ⟨.cons (n := 0xE9) (k := 2) (by decide +kernel) (by decide) (by decide) ?_, by decide +kernel⟩
      exact .nil)

/-- **C91 is false of negative integers at version 3**: `serializeCall` and `parse` disagree about them, each comes back as one less. -/
theorem C91_negative_violated (H : Host) (hH : Spec.Host.Faithful H) (buffers : Bool) (method : Bytes) (hm : 1 ≤ method.length ∧ method.length ≤ 255) (ht : PlainText method)
    (n : Int) (h0 : n < 0) (hn : n.natAbs < 2 ^ 51) :
    parse H buffers (serializeCall H 3 .none method (.arr [.int n])) = .ok (.call method [.int (n - 1)]) := by
  have hw : Writes (fun _ => true) (verOf 3) (feedItems [.int (n - 1)]) (serializeItems H 3 .none [] 0 [.int n]) := by
    refine ⟨packInt ⟨3, 0⟩ (n - 1), ?_, ?_⟩
    · simp only [feedItems, feed, List.append_nil]
      exact run_one rfl
    · simp only [serializeItems, serialize, getHint, List.append_nil]
      exact negative_bytes n h0 (by omega)
  obtain ⟨ws, h1, h2⟩ := call_bytes (.inr rfl) hm (by simp) (by simp [hintAt]) hw
  rw [h2]
  have := call_read (buffers := buffers) hH (verOf_known 3) (by decide) hm ht (args := [.int (n - 1)])
    ⟨⟨by unfold IsI64; omega, fun h => absurd h (by decide)⟩, trivial⟩
    (by simp only [JsReadableItems, JsReadable]; exact ⟨⟨by omega, fun _ => by omega⟩, trivial⟩) h1
  simpa [jsOfItems, jsOf] using this

/-! ## C92: anything read by JavaScript -/

/-- The reading did not run out of fuel, and `k` bytes at least were taken. -/
def Sound {α} (k : Nat) (d : Bytes) : P α → Prop
  | .error e => e ≠ .fuel
  | .ok (_, r) => r.length + k ≤ d.length

theorem sound_getByte (d : Bytes) : Sound 1 d (getByte d) := by
  unfold getByte Sound
  cases d <;> simp

theorem sound_getInt : ∀ (k : Nat) (d : Bytes), Sound 0 d (getInt k d)
  | 0, d => by simp [getInt, Sound]
  | k + 1, d => by
    unfold getInt
    have h := sound_getByte d
    split
    next e he => rw [he] at h; exact h
    next b d1 he =>
      rw [he] at h
      have h2 := sound_getInt k d1
      split
      next e he2 => rw [he2] at h2; exact h2
      next n d2 he2 => rw [he2] at h2; unfold Sound at *; omega

theorem sound_getBytes : ∀ (k : Nat) (d : Bytes), Sound 0 d (getBytes k d)
  | 0, d => by simp [getBytes, Sound]
  | k + 1, [] => by simp [getBytes, Sound]
  | k + 1, b :: r => by
    unfold getBytes
    have h2 := sound_getBytes k r
    simp only
    split
    next e he2 => rw [he2] at h2; exact h2
    next n d2 he2 => rw [he2] at h2; unfold Sound at *; simp only [List.length_cons]; omega

mutual
theorem sound_value (H : Host) (version : Nat) (buffers : Bool) : ∀ (fuel : Nat) (d : Bytes), 2 * d.length < fuel → Sound 1 d (parseValue H version buffers fuel d)
  | 0, _, h => by omega
  | fuel + 1, d, hf => by
    unfold parseValue
    have h := sound_getByte d
    split
    next e he => rw [he] at h; exact h
    next first d1 he =>
      rw [he] at h
      have hd : d1.length + 1 ≤ d.length := h
      have hi : ∀ k (f : Nat → Bytes → P Js), (∀ n d2, d2.length ≤ d1.length → Sound 1 d (f n d2)) →
          Sound 1 d (match getInt k d1 with | .error e => .error e | .ok (n, d2) => f n d2) := by
        intro k f hfs
        have h2 := sound_getInt k d1
        split
        next e he2 => rw [he2] at h2; exact h2
        next n d2 he2 => rw [he2] at h2; exact hfs n d2 h2
      have hE : Sound (α := Js) 1 d (.error .error) := by simp [Sound]
      have hok : ∀ (v : Js) (d2 : Bytes), d2.length ≤ d1.length → Sound 1 d (.ok (v, d2)) := by intro v d2 hl; unfold Sound; omega
      have hdrop : ∀ n (d2 : Bytes), d2.length ≤ d1.length → (decodeUTF8 H n d2).2.length ≤ d1.length := by
        intro n d2 hl; unfold decodeUTF8; simp only [List.length_drop]; omega
      by_cases c4 : first / 8 = 4
      · rw [if_pos c4]
        split
        · exact hE
        · exact hi _ (fun n d2 => .ok (.str (decodeUTF8 H n d2).1, (decodeUTF8 H n d2).2)) (fun n d2 hl => hok _ _ (hdrop n d2 hl))
      rw [if_neg c4]
      by_cases c10 : first / 8 = 10
      · rw [if_pos c10]
        refine hi _ (fun n d2 => match parseMembers H version buffers fuel n [] d2 with | .error e => .error e | .ok (ms, d) => .ok (.obj ms, d)) (fun n d2 hl => ?_)
        have h3 := sound_members H version buffers fuel n [] d2 (by omega)
        split
        next e he3 => rw [he3] at h3; exact h3
        next ms d3 he3 => rw [he3] at h3; unfold Sound at h3; exact hok _ _ (by omega)
      rw [if_neg c10]
      by_cases c11 : first / 8 = 11
      · rw [if_pos c11]
        refine hi _ (fun n d2 => match parseItems H version buffers fuel n d2 with | .error e => .error e | .ok (ms, d) => .ok (.arr ms, d)) (fun n d2 hl => ?_)
        have h3 := sound_items H version buffers fuel n d2 (by omega)
        split
        next e he3 => rw [he3] at h3; exact h3
        next ms d3 he3 => rw [he3] at h3; unfold Sound at h3; exact hok _ _ (by omega)
      rw [if_neg c11]
      by_cases c2 : first / 8 = 2
      · rw [if_pos c2]
        split
        · exact hE
        · exact hok _ _ (Nat.le_refl _)
      rw [if_neg c2]
      by_cases c1 : first / 8 = 1
      · rw [if_pos c1]
        split
        · exact hi _ (fun n d2 => .ok (.int (unZigzag n), d2)) (fun n d2 hl => hok _ _ hl)
        · split
          · exact hE
          · exact hi _ (fun n d2 => .ok (.int (if n ≥ 0x80000000 then (n : Int) - 0x80000000 else n), d2)) (fun n d2 hl => hok _ _ hl)
      rw [if_neg c1]
      by_cases c5 : first / 8 = 5
      · rw [if_pos c5]
        have h2 := sound_getByte d1
        split
        next e he2 => rw [he2] at h2; exact h2
        next z d2 he2 =>
          rw [he2] at h2
          have h3 := sound_getInt (if version = 3 then 8 else 4) d2
          split
          next e he3 => rw [he3] at h3; exact h3
          next ts d3 he3 =>
            rw [he3] at h3
            have h4 := sound_getBytes 5 d3
            split
            next e he4 => rw [he4] at h4; exact h4
            next l d4 he4 => rw [he4] at h4; unfold Sound at h2 h3 h4; exact hok _ _ (by omega)
      rw [if_neg c5]
      by_cases c3 : first / 8 = 3
      · rw [if_pos c3]
        have h2 := sound_getBytes 8 d1
        split
        next e he2 => rw [he2] at h2; exact h2
        next l d2 he2 => rw [he2] at h2; exact hok _ _ h2
      rw [if_neg c3]
      by_cases c6 : first / 8 = 6
      · rw [if_pos c6]
        split
        · exact hE
        · refine hi _ (fun n d2 => match getBytes n d2 with
            | .error e => .error e | .ok (l, d) => .ok (if buffers then .buffer l else .arr ((codes l).map fun (n : Nat) => .int n), d)) (fun n d2 hl => ?_)
          have h2 := sound_getBytes n d2
          split
          next e he2 => rw [he2] at h2; exact h2
          next l d3 he2 => rw [he2] at h2; unfold Sound at h2; exact hok _ _ (by omega)
      rw [if_neg c6]
      by_cases c7 : first / 8 = 7
      · rw [if_pos c7]
        exact hi _ (fun n d2 => .ok (.int n, d2)) (fun n d2 hl => hok _ _ hl)
      rw [if_neg c7]
      by_cases c8 : first / 8 = 8
      · rw [if_pos c8]
        exact hi _ (fun n d2 => .ok (.int (-(n : Int)), d2)) (fun n d2 hl => hok _ _ hl)
      rw [if_neg c8]
      by_cases c12 : first / 8 = 12
      · rw [if_pos c12]
        split
        · exact hok _ _ (Nat.le_refl _)
        · exact hE
      · rw [if_neg c12]; exact hE
theorem sound_items (H : Host) (version : Nat) (buffers : Bool) :
    ∀ (fuel n : Nat) (d : Bytes), 2 * d.length + 1 < fuel → Sound 0 d (parseItems H version buffers fuel n d)
  | _, 0, d, _ => by unfold parseItems; simp [Sound]
  | 0, _ + 1, _, h => by omega
  | fuel + 1, n + 1, d, h => by
    unfold parseItems
    have h1 := sound_value H version buffers fuel d (by omega)
    split
    next e he => rw [he] at h1; exact h1
    next v d1 he =>
      rw [he] at h1
      unfold Sound at h1
      have h2 := sound_items H version buffers fuel n d1 (by omega)
      split
      next e he => rw [he] at h2; exact h2
      next vs d2 he => rw [he] at h2; unfold Sound at *; omega
theorem sound_members (H : Host) (version : Nat) (buffers : Bool) :
    ∀ (fuel n : Nat) (ms : List (Bytes × Js)) (d : Bytes), 2 * d.length + 1 < fuel → Sound 0 d (parseMembers H version buffers fuel n ms d)
  | _, 0, ms, d, _ => by unfold parseMembers; simp [Sound]
  | 0, _ + 1, _, _, h => by omega
  | fuel + 1, n + 1, ms, d, h => by
    unfold parseMembers
    have h1 := sound_getByte d
    split
    next e he => rw [he] at h1; exact h1
    next len d1 he =>
      rw [he] at h1
      unfold Sound at h1
      have hl : (decodeUTF8 H len d1).2.length ≤ d1.length := by unfold decodeUTF8; simp
      have h2 := sound_value H version buffers fuel (decodeUTF8 H len d1).2 (by omega)
      split
      next e he => rw [he] at h2; exact h2
      next v d2 he =>
        rw [he] at h2
        unfold Sound at h2
        have h3 := sound_members H version buffers fuel n (assign ms (decodeUTF8 H len d1).1 v) d2 (by omega)
        generalize parseMembers H version buffers fuel n (assign ms (decodeUTF8 H len d1).1 v) d2 = r at *
        cases r with
        | error e => exact h3
        | ok p => unfold Sound at *; omega
end

theorem sound_params (H : Host) (version : Nat) (buffers : Bool) : ∀ (fuel : Nat) (d : Bytes), 2 * d.length + 1 < fuel → parseParams H version buffers fuel d ≠ .error .fuel
  | 0, _, h => by omega
  | fuel + 1, d, h => by
    unfold parseParams
    split
    · simp
    · have h1 := sound_value H version buffers fuel d (by omega)
      split
      next e he => rw [he] at h1; intro hc; cases hc; exact h1 rfl
      next v d1 he =>
        rw [he] at h1
        unfold Sound at h1
        have h2 := sound_params H version buffers fuel d1 (by omega)
        split
        next e he => rw [he] at h2; exact h2
        next vs he => simp

/-- **C92 (termination).** Whatever the bytes are, `parse` comes to an end: it returns a value or throws. -/
theorem C92_terminates (H : Host) (buffers : Bool) (data : Bytes) : parse H buffers data ≠ .error .fuel := by
  unfold parse
  split
  next m1 m2 version x d =>
    split
    · simp
    have h0 := sound_getByte d
    split
    next e he => rw [he] at h0; intro hc; cases hc; exact h0 rfl
    next first d1 he =>
      rw [he] at h0
      unfold Sound at h0
      have hl : 2 * d1.length + 1 < 2 * (m1 :: m2 :: version :: x :: d).length := by simp only [List.length_cons]; omega
      generalize 2 * (m1 :: m2 :: version :: x :: d).length = fuel at *
      split
      · have h1 := sound_value H version.toNat buffers fuel d1 (by omega)
        split
        next e he => rw [he] at h1; intro hc; cases hc; exact h1 rfl
        next num d2 he =>
          rw [he] at h1
          unfold Sound at h1
          have h2 := sound_value H version.toNat buffers fuel d2 (by omega)
          split
          next e he => rw [he] at h2; intro hc; cases hc; exact h2 rfl
          next msg d3 he => simp
      split
      · have h1 := sound_value H version.toNat buffers fuel d1 (by omega)
        split
        next e he => rw [he] at h1; intro hc; cases hc; exact h1 rfl
        next v d2 he => split <;> simp
      split
      · have h1 := sound_getByte d1
        split
        next e he => rw [he] at h1; intro hc; cases hc; exact h1 rfl
        next len d2 he =>
          rw [he] at h1
          unfold Sound at h1
          split
          · simp
          · have hl2 : (decodeUTF8 H len d2).2.length ≤ d2.length := by unfold decodeUTF8; simp
            have h2 := sound_params H version.toNat buffers fuel (decodeUTF8 H len d2).2 (by omega)
            split
            next e he => rw [he] at h2; intro hc; cases hc; exact h2 rfl
            next vs he => simp
      · simp
  next => simp

/-- **C92 (garbage).** A response that C++ made (and JavaScript can read), with anything after it, is refused. -/
theorem C92_garbage_refused (H : Host) (hH : Spec.Host.Faithful H) (buffers : Bool) (strOk : Bytes → Bool) (ver : Version) (hv : ver.Known) (h2 : 2 ≤ ver.major)
    (v : Value) (hheld : Held v) (hsmall : Small v) (hr : JsReadable ver.major.toNat v) (ws : List Bytes) (hsent : sendResponse strOk ver v = (ws, none))
    (q : Bytes) (hq : q ≠ []) : parse H buffers (ws.flatten ++ q) = .error .error := by
  rw [response_read H hH buffers strOk ver hv h2 v hheld hsmall hr ws hsent q, if_neg hq]

/-- **C92 (truncation, partial).** A response that C++ made (and JavaScript can read), cut off anywhere, is refused, if its value does not end with text.
Missing: values that end with text, for which it is false (below). -/
theorem C92_truncated_refused_partial (H : Host) (hH : Spec.Host.Faithful H) (buffers : Bool) (strOk : Bytes → Bool) (ver : Version) (hv : ver.Known) (h2 : 2 ≤ ver.major)
    (v : Value) (hheld : Held v) (hsmall : Small v) (hr : JsReadable ver.major.toNat v) (ht : ¬ EndsWithText v)
    (ws : List Bytes) (hsent : sendResponse strOk ver v = (ws, none)) (n : Nat) (hn : n < ws.flatten.length) (x : Parsed) :
    parse H buffers (ws.flatten.take n) ≠ .ok x := by
  have hacc : (BinMarshaller.run strOk ver (feed v)).2 = none := by
    have : (sendResponse strOk ver v).2 = none := by rw [hsent]
    exact (run_one_none _ _ this).2
  have hw := accepted h2 v hheld hsmall hacc
  obtain ⟨wv, h3, h4, h5⟩ := parse_value (H := H) (buffers := buffers) hH hv h2 v hw hr
  have hcut := cut_value (H := H) (buffers := buffers) hH hv h2 v hw hr wv h3
  unfold sendResponse at hsent
  rw [run_cons _ _ _ _ [packMagic ver, [dataType T_RESPONSE 0]] rfl, h3] at hsent
  cases hsent
  have he : ([packMagic ver, [dataType T_RESPONSE 0]] ++ wv).flatten = 0xCA :: 0x11 :: ver.major :: ver.minor :: dataType T_RESPONSE 0 :: wv.flatten := by
    simp [packMagic]
  rw [he] at hn ⊢
  have hd : (dataType T_RESPONSE 0).toNat / 8 = 14 := by decide
  match n with
  | 0 | 1 | 2 | 3 => unfold parse; simp
  | 4 => unfold parse; simp [getByte]
  | n + 5 =>
    simp only [List.take_succ_cons]
    simp only [List.length_cons] at hn
    unfold parse
    simp only [getByte, hd]
    rw [if_neg (by decide), if_neg (by decide), if_pos trivial]
    split
    next => simp
    next v' r hp =>
      have hlen : (wv.flatten.take n).length = n := by rw [List.length_take]; omega
      have hq : wv.flatten.drop n ≠ [] := by
        intro hc
        have := congrArg List.length hc
        rw [List.length_drop] at this
        simp only [List.length_nil] at this
        omega
      exact absurd (hcut _ _ (wv.flatten.drop n) _ _ (by simp only [List.length_cons]; omega) (List.take_append_drop n _).symm hq hp).1 ht

/-- The hypotheses are met: `sampleReply`, which ends with a date, and a struct with text that is not at its end. -/
example : ¬ EndsWithText sampleReply ∧ ¬ EndsWithText (.struct [(asc "a", .string (asc "x")), (asc "b", .array [])]) ∧
    EndsWithText (.struct [(asc "a", .array []), (asc "b", .array [.null, .string (asc "x")])]) := by
  simp [sampleReply, EndsWithText, EndsWithTextItems, EndsWithTextMembers, asc]

/-- **C92 is false of truncated messages**: a response that is cut inside of its text is accepted, the rest of the text being filled with zeros. -/
theorem C92_truncated_violated (buffers : Bool) :
    ∃ ws n, sendResponse (fun _ => true) ⟨2, 1⟩ (.string (asc "secret")) = (ws, none) ∧ n < ws.flatten.length ∧
      parse exactHost buffers (ws.flatten.take n) = .ok (.response (.str (asc "sec" ++ [0, 0, 0]))) :=
  ⟨_, 10, rfl, by decide +kernel, rfl⟩

end Js
end Frpc
