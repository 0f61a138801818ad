import Verif.Proofs.SizesTree
import Verif.Props.AnyInput
/-!
# C128: what a binary message makes is no larger than the message

`leastSize`, `valuesIn`, `textIn`, `depthOf` are in `Spec/Sizes.lean`.
-/
namespace Frpc
open BinUnMarshaller
open Spec (leastSize valuesIn textIn depthOf Legal)
open TreeBuilder (Cfg TB builder getData)

/-- Bytes of text, data and names that a builder call carries. -/
def Spec.textOf : Event → Nat
  | .methodCall s | .fault _ s | .string s | .binary s | .member s => s.length
  | _ => 0

/-- … all calls. -/
def Spec.textsOf : List Event → Nat
  | [] => 0
  | e :: es => Spec.textOf e + Spec.textsOf es

theorem nest_cost {s s' : List Spec.Open} {e : Event} (h : Spec.nest s e = some s') : 1 + Spec.textOf e + s'.length ≤ cost e + s.length := by
  have hi : ∀ {s1}, Spec.item s = some s1 → s1.length = s.length := item_length
  cases e with
  | int a => have := hi h; simp only [Spec.textOf, cost]; omega
  | bool a => have := hi h; simp only [Spec.textOf, cost]; omega
  | double a => have := hi h; simp only [Spec.textOf, cost]; omega
  | null => have := hi h; simp only [Spec.textOf, cost]; omega
  | string a => have := hi h; simp only [Spec.textOf, cost]; omega
  | binary a => have := hi h; simp only [Spec.textOf, cost]; omega
  | dateTime a => have := hi h; simp only [Spec.textOf, cost]; omega
  | member k =>
    simp only [Spec.nest] at h
    split at h
    · cases h; simp only [Spec.textOf, cost, List.length_cons]; omega
    · cases h
  | openArray k =>
    simp only [Spec.nest] at h
    cases hs : Spec.item s with
    | none => rw [hs] at h; cases h
    | some s1 => rw [hs] at h; cases h; have := hi hs; simp only [Spec.textOf, cost, List.length_cons]; omega
  | openStruct k =>
    simp only [Spec.nest] at h
    cases hs : Spec.item s with
    | none => rw [hs] at h; cases h
    | some s1 => rw [hs] at h; cases h; have := hi hs; simp only [Spec.textOf, cost, List.length_cons]; omega
  | closeArray =>
    simp only [Spec.nest] at h
    split at h
    · cases h; simp only [Spec.textOf, cost, List.length_cons]; omega
    · cases h
  | closeStruct =>
    simp only [Spec.nest] at h
    split at h
    · cases h; simp only [Spec.textOf, cost, List.length_cons]; omega
    · cases h
  | methodCall a => simp [Spec.nest] at h
  | methodResponse => simp [Spec.nest] at h
  | fault a b => simp [Spec.nest] at h

theorem run_cost : ∀ {es : List Event} {s s' : List Spec.Open}, Spec.run s es = some s' → es.length + Spec.textsOf es + s'.length ≤ costs es + s.length
  | [], s, s', h => by simp [Spec.run] at h; subst h; simp [Spec.textsOf, costs]
  | e :: es, s, s', h => by
    simp only [Spec.run] at h
    cases hn : Spec.nest s e with
    | none => rw [hn] at h; cases h
    | some s1 =>
      rw [hn] at h
      have h1 := nest_cost hn
      have h2 := run_cost h
      simp only [Spec.textsOf, costs, List.length_cons]
      omega

theorem trace_costs (req : Req) (ps : List Bytes) (h : trace req ps ≠ []) : 4 + costs (trace req ps) ≤ ps.flatten.length := by
  obtain ⟨c, p, q, hs, _⟩ := trace_steps (req := req) (ps := ps)
  exact hs.header Ok.init rfl h

/-- **C128 (the calls of the builder).** Whatever bytes arrive, in whatever pieces, the calls the decoder makes of any builder and the bytes of text, data and names
they carry are together no more than the bytes received. -/
theorem C128_calls (req : Req) (ps : List Bytes) : (trace req ps).length + Spec.textsOf (trace req ps) ≤ ps.flatten.length := by
  by_cases h : trace req ps = []
  · rw [h]; simp [Spec.textsOf]
  have hc := trace_costs req ps h
  obtain ⟨hdr, opens, hl⟩ := (C14_well_nested req ps).1
  generalize trace req ps = t at h hc hl
  cases hl with
  | empty => exact absurd rfl h
  | fault c m => simp only [Spec.textsOf, Spec.textOf, costs, cost, List.length_cons, List.length_nil] at hc ⊢; omega
  | call name body s hb =>
    have := run_cost hb
    simp only [Spec.textsOf, Spec.textOf, costs, cost, List.length_cons, List.length_nil] at hc this ⊢; omega
  | response body s hb =>
    have := run_cost hb
    simp only [Spec.textsOf, Spec.textOf, costs, cost, List.length_cons, List.length_nil] at hc this ⊢; omega

/-- **C128 (at any time).** Whatever bytes have arrived so far, what the tree builder holds of them could be carried by a message that is no longer. -/
theorem C128_at_any_time (cfg : Cfg) (req : Req) (ps : List Bytes) (o : Obj) (tb : TB) (v : Value)
    (h : unMarshallAll (builder cfg) req init TreeBuilder.init ps = (o, tb, none)) (hv : TreeBuilder.data tb = some v) :
    leastSize v + 5 ≤ ps.flatten.length := by
  have ha := taken h
  have hlim := C18_limited req ps
  obtain ⟨hdr, opens, hl⟩ := (C14_well_nested req ps).1
  have hc := trace_costs req ps
  have hd : leastSize v ≤ TreeBuilder.retSize tb.ret + TreeBuilder.framesSize tb.frames := by
    have := TreeBuilder.collapse_size tb.frames.length tb.ret tb.frames
    unfold TreeBuilder.data at hv
    rw [hv] at this
    exact this
  generalize trace req ps = t at ha hlim hl hc
  cases hl with
  | empty =>
    simp only [applyEvents, Prod.mk.injEq, and_true] at ha
    subst ha; cases hv
  | fault c m =>
    simp only [applyEvents, builder, TreeBuilder.build, Prod.mk.injEq, and_true] at ha
    subst ha; cases hv
  | call name body s hb =>
    have hname : 1 ≤ name.length := (hlim (.methodCall name) (by simp)).1
    have hc := hc (by simp)
    simp only [costs, cost] at hc
    simp only [applyEvents, builder, TreeBuilder.build] at ha
    obtain ⟨_, h2⟩ := TreeBuilder.run_size (x := [.array]) (.inr rfl) body [] opens _ tb hb ⟨rfl, by simp⟩ ha
    have h3 : TreeBuilder.retSize tb.ret + TreeBuilder.framesSize tb.frames + TreeBuilder.waiting opens tb ≤ 2 + costs body := h2
    omega
  | response body s hb =>
    have hc := hc (by simp)
    simp only [costs, cost] at hc
    simp only [applyEvents, builder, TreeBuilder.build] at ha
    obtain ⟨_, h2⟩ := TreeBuilder.run_size (x := []) (.inl rfl) body [] opens _ tb hb ⟨rfl, by simp⟩ ha
    have h3 : TreeBuilder.retSize tb.ret + TreeBuilder.framesSize tb.frames + TreeBuilder.waiting opens tb ≤ 0 + costs body := h2
    omega

/-- **C128.** Whatever message is received, in whatever pieces, with whatever announced counts: the value it gives consists of no more values, with their texts, binary data
and names, than the message has bytes, and containers in it are nested at most half as deep as the message has bytes. -/
theorem C128_no_amplification (cfg : Cfg) (req : Req) (ps : List Bytes) (tb : TB) (v : Value) (h : receive cfg req ps = .ok tb) (hv : getData tb = .ok v) :
    leastSize v + 5 ≤ ps.flatten.length ∧ valuesIn v + textIn v + 5 ≤ ps.flatten.length ∧ 2 * depthOf v + 5 ≤ ps.flatten.length := by
  unfold receive at h
  have hd : TreeBuilder.data tb = some v := by
    unfold getData at hv
    split at hv
    · next h1 => cases hv; exact h1
    · cases hv
  have hmain : leastSize v + 5 ≤ ps.flatten.length := by
    revert h
    generalize hx : unMarshallAll (builder cfg) req init TreeBuilder.init ps = x
    obtain ⟨o, b, e⟩ := x
    intro h
    cases e with
    | some e => cases h
    | none =>
      simp only [bind, Except.bind] at h
      split at h
      · cases h
      · cases h
        exact C128_at_any_time cfg req ps o _ v hx hd
  have h1 := values_least v
  have h2 := depth_least v
  exact ⟨hmain, by omega, by omega⟩

/-- Arrays in arrays, `d` besides the outermost. -/
def nestedArrays : Nat → Value
  | 0 => .array []
  | d + 1 => .array [nestedArrays d]

/-- Two messages whose values take all their bytes but the header; a struct among them. -/
example : ∃ tb, receive plainCfg .response [[0xCA, 0x11, 2, 1, 0x70, 0x50, 1, 1, 97, 0x58, 1, 0x20, 2, 104, 105]] = .ok tb ∧
    getData tb = .ok (.struct [([97], .array [.string [104, 105]])]) := ⟨_, rfl, rfl⟩

example : leastSize (.struct [([97], .array [.string [104, 105]])]) = 10 ∧ valuesIn (.struct [([97], .array [.string [104, 105]])]) = 3 ∧
    textIn (.struct [([97], .array [.string [104, 105]])]) = 3 ∧ depthOf (.struct [([97], .array [.string [104, 105]])]) = 2 := ⟨rfl, rfl, rfl, rfl⟩

/-- A count of more than the message has is announced: the array is empty so far. -/
example : ∃ o tb, unMarshallAll (builder plainCfg) .response init TreeBuilder.init [[0xCA, 0x11, 2, 1, 0x70, 0x5B, 0xFF], [0xFF, 0xFF, 0x3F]] = (o, tb, none) ∧
    TreeBuilder.data tb = some (.array []) := ⟨_, _, rfl, rfl⟩

theorem nested_size : ∀ d, leastSize (nestedArrays d) = 2 * d + 2 ∧ depthOf (nestedArrays d) = d + 1 ∧ received plainCfg ⟨2, 1⟩ (nestedArrays d) = nestedArrays d
    ∧ WireOk plainCfg.strOk ⟨2, 1⟩ (nestedArrays d)
  | 0 => by simp [nestedArrays, leastSize, Spec.leastItems, depthOf, Spec.depthItems, received, receivedItems, WireOk, WireOkItems]
  | d + 1 => by
    obtain ⟨h1, h2, h3, h4⟩ := nested_size d
    refine ⟨?_, ?_, ?_, ?_⟩
    · simp only [nestedArrays, leastSize, Spec.leastItems, h1]; omega
    · simp only [nestedArrays, depthOf, Spec.depthItems, h2]; omega
    · simp only [nestedArrays, received, receivedItems, h3]
    · simp only [nestedArrays, WireOk, WireOkItems, h4]; simp

theorem nested_marshalled : ∀ d, ∃ ws, BinMarshaller.run plainCfg.strOk ⟨2, 1⟩ (Frpc.feed (nestedArrays d)) = (ws, none) ∧ ws.flatten.length = 2 * d + 2
  | 0 => ⟨_, rfl, rfl⟩
  | d + 1 => by
    obtain ⟨ws, h1, h2⟩ := nested_marshalled d
    have hf : Frpc.feed (nestedArrays (d + 1)) = .packArray 1 :: Frpc.feed (nestedArrays d) := by
      simp [nestedArrays, Frpc.feed, Frpc.feedItems]; rfl
    refine ⟨[[0x58], [1]] ++ ws, ?_, ?_⟩
    · rw [hf, run_cons plainCfg.strOk ⟨2, 1⟩ (.packArray 1) _ [[0x58], [1]] rfl, h1]
    · simp [h2]; omega

/-- **C128 (no smaller bound holds).** For every depth there is a message of just that many bytes: nothing but the length of the message limits how deep a received value is. -/
theorem C128_tight (d : Nat) : ∃ (ps : List Bytes) (tb : TB) (v : Value), receive plainCfg .response ps = .ok tb ∧ getData tb = .ok v ∧ depthOf v = d + 1 ∧
    ps.flatten.length = 2 * depthOf v + 5 ∧ ps.flatten.length = leastSize v + 5 := by
  obtain ⟨h1, h2, h3, h4⟩ := nested_size d
  obtain ⟨ws, hw, hr⟩ := response_received plainCfg ⟨2, 1⟩ ⟨by decide, by decide⟩ .response (.inl rfl) (nestedArrays d) h4
  obtain ⟨tb, g1, g2⟩ := hr ws rfl
  obtain ⟨ws', w1, w2⟩ := nested_marshalled d
  have hws : ws.flatten.length = 2 * d + 7 := by
    unfold sendResponse at hw
    rw [run_cons plainCfg.strOk ⟨2, 1⟩ .packMethodResponse _ _ rfl, w1] at hw
    simp only [Prod.mk.injEq, and_true] at hw
    rw [← hw]
    simp [w2, BinMarshaller.packMagic]
  refine ⟨ws, tb, nestedArrays d, g1, ?_, h2, by rw [h2]; omega, by rw [h1]; omega⟩
  rw [g2, h3]

end Frpc
