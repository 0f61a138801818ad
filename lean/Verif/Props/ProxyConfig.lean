import Verif.Model.ProxyConfig
import Verif.Spec.Wire
import Verif.Proofs.StructMap
import Verif.Proofs.Message
/-!
# The configuration of a proxy as a struct (C57, C84)
-/
namespace Frpc
open ProxyConfig Proxy
open Spec (Held)

/-- **C57, `_partial`: for an empty string, or none, and by the first two bytes of a string that are not white space.** They select the default version
and the version of these two bytes, what is behind them is ignored. (The property asks for text like "2.1", see `C57_violated`.) -/
theorem C57_version_partial (ms : List (Bytes × Value)) (u : Bytes) (cfg : Config) (h : configFromStruct ms = .ok (u, cfg)) :
    (SMap.find? (asc "protocolVersion") ms = none → cfg.version = ⟨2, 1⟩) ∧
    (SMap.find? (asc "protocolVersion") ms = some (.string []) → cfg.version = ⟨2, 1⟩) ∧
    ∀ a b (w w' r : Bytes), SMap.find? (asc "protocolVersion") ms = some (.string (w ++ a :: (w' ++ b :: r))) →
      (∀ c ∈ w, isSpace c = true) → (∀ c ∈ w', isSpace c = true) → isSpace a = false → isSpace b = false → cfg.version = ⟨a, b⟩ := by
  have hv : ∀ s, getString (asc "protocolVersion") ms = .ok s → parseVersion s = .ok cfg.version := by
    intro s hs
    simp only [configFromStruct, hs, bind, Except.bind, pure, Except.pure] at h
    repeat' split at h
    all_goals first | cases h | skip
    assumption
  refine ⟨fun hf => ?_, fun hf => ?_, fun a b w w' r hf hw hw' ha hb => ?_⟩
  · have := hv [] (by simp only [getString, hf])
    simp only [parseVersion, if_true, Except.ok.injEq] at this
    exact this.symm
  · have := hv [] (by simp only [getString, hf])
    simp only [parseVersion, if_true, Except.ok.injEq] at this
    exact this.symm
  · have := hv (w ++ a :: (w' ++ b :: r)) (by simp only [getString, hf])
    have drop : ∀ (w : Bytes) (c : UInt8) (r : Bytes), (∀ x ∈ w, isSpace x = true) → isSpace c = false → (w ++ c :: r).dropWhile isSpace = c :: r := by
      intro w c r hw hc
      induction w with
      | nil => simp [List.dropWhile, hc]
      | cons x w ih => simp only [List.cons_append, List.dropWhile, hw x (by simp)]; exact ih (fun y hy => hw y (by simp [hy]))
    have hne : w ++ a :: (w' ++ b :: r) ≠ [] := by simp
    simp only [parseVersion, hne, if_false, readChar, drop w a _ hw ha, drop w' b _ hw' hb, bind, Except.bind, pure, Except.pure, Except.ok.injEq] at this
    exact this.symm

example : configFromStruct [(asc "protocolVersion", .string [3, 0])] = .ok ([], ⟨10000, 10000, 1000, false, 0, false, ⟨3, 0⟩⟩) := by decide +kernel

/-- **C57 is false:** a text "M.m" selects the version whose numbers are the character codes of M and of the dot, whatever M and m are. -/
theorem C57_violated (M m : UInt8) (hM : isDigit M = true) (hm : isDigit m = true) :
    parseVersion [M, (asc ".").head!, m] = .ok ⟨M, 46⟩ ∧ (⟨M, 46⟩ : Version) ≠ ⟨M - 48, m - 48⟩ := by
  have hs : isSpace M = false := by
    have := forall_byte (fun c => !isDigit c || !isSpace c) (by decide +kernel) M
    rw [hM] at this
    simpa using this
  refine ⟨?_, fun h => ?_⟩
  · simp only [parseVersion]
    rw [if_neg (by simp)]
    have e : (asc ".").head! = 46 := by decide +kernel
    simp [readChar, List.dropWhile, hs, e, show isSpace 46 = false by decide, bind, Except.bind, pure, Except.pure]
  · injection h with h1 h2
    have := forall_byte (fun m => decide ((46 : UInt8) ≠ m - 48 ∨ isDigit m = false)) (by decide +kernel) m
    simp only [decide_eq_true_eq] at this
    rcases this with h | h
    · exact h h2
    · rw [hm] at h; cases h

example : parseVersion (asc "2.1") = .ok ⟨50, 46⟩ := by decide +kernel

/-- **C57 (what comes of it).** With a version text that begins with a digit, no call of the proxy ever succeeds: every call throws before
anything is sent, whatever is called before and whatever the servers do. -/
theorem C57_useless_violated (ms : List (Bytes × Value)) (u : Bytes) (cfg : Config) (h : configFromStruct ms = .ok (u, cfg)) (c : UInt8) (rest : Bytes)
    (hf : SMap.find? (asc "protocolVersion") ms = some (.string (c :: rest))) (hc : isDigit c = true) (env : Proxy.Env) (url : Url.Url) (ops : List Op) :
    ∀ x ∈ results env (new url cfg) ops, x = (.packing .other, none) := by
  have hs : isSpace c = false ∧ ¬ c ≤ 3 := by
    have := forall_byte (fun c => decide (isDigit c = false ∨ (isSpace c = false ∧ ¬ c ≤ 3))) (by decide +kernel) c
    simp only [decide_eq_true_eq] at this
    rcases this with h | h
    · rw [hc] at h; cases h
    · exact h
  have hv : cfg.version.major = c := by
    have hv : parseVersion (c :: rest) = .ok cfg.version := by
      simp only [configFromStruct, getString, hf, bind, Except.bind, pure, Except.pure] at h
      repeat' split at h
      all_goals first | cases h | skip
      assumption
    simp only [parseVersion] at hv
    rw [if_neg (by simp)] at hv
    simp only [readChar, List.dropWhile, hs.1, bind, Except.bind, pure, Except.pure] at hv
    split at hv
    · cases hv
    · injection hv with hv; rw [← hv]
  have step_version : ∀ (p : Proxy) (hp : p.version.major = c) (o : Op), (step env p o).2.version.major = c ∧ ∀ x ∈ (step env p o).1.toList, x = (.packing .other, none) := by
    intro p hp o
    cases o with
    | call name args t =>
      have hpk : (packCall env.strOk env.dbl (chooseBinary p) p.version name args) = ([], some .other) := by
        unfold packCall
        split
        · rw [if_neg]
          simp only [BinMarshaller.accepts, hp]
          have := hs.2
          simp only [Bool.not_eq_true', decide_eq_false_iff_not, Decidable.not_not]
          exact UInt8.not_le.1 this
        · unfold XmlMarshaller.run
          rw [if_neg]
          simp only [XmlMarshaller.accepts, hp, decide_eq_true_eq]
          exact hs.2
      simp only [step, call, hpk]
      exact ⟨hp, by simp⟩
    | _ => exact ⟨hp, by simp [step]⟩
  have all : ∀ (ops : List Op) (p : Proxy), p.version.major = c → ∀ x ∈ results env p ops, x = (.packing .other, none) := by
    intro ops
    induction ops with
    | nil => intro p _ x hx; simp [results] at hx
    | cons o os ih =>
      intro p hp x hx
      simp only [results, List.mem_append] at hx
      obtain ⟨h1, h2⟩ := step_version p hp o
      rcases hx with hx | hx
      · exact h2 x hx
      · exact ih _ h1 x hx
  exact all ops (new url cfg) hv

example : configFromStruct [(asc "keepAlive", .bool true), (asc "protocolVersion", .string (asc "2.1"))] = .ok ([], ⟨10000, 10000, 1000, true, 0, false, ⟨50, 46⟩⟩) := by
  decide +kernel

/-- **C57:** with a text of one character the minor number is never set. -/
theorem C57_short_violated (c : UInt8) (h : isSpace c = false) : parseVersion [c] = .error .ub := by
  simp [parseVersion, readChar, List.dropWhile, h, bind, Except.bind]

/-- A member of a configuration: its value if it is there, or the default. -/
structure Says {α : Type} (ms : List (Bytes × Value)) (k : Bytes) (is : Value → α → Prop) (default x : α) : Prop where
  there : ∀ v, (k, v) ∈ ms → is v x
  missing : (∀ v, (k, v) ∉ ms) → x = default

theorem find_mem {α : Type} : ∀ {ms : List (Bytes × α)} (_ : ms.Pairwise (fun a b => keyLt a.1 b.1 = true)) {k : Bytes} {v : α}, (k, v) ∈ ms → SMap.find? k ms = some v
  | (k', v') :: ms, hs, k, v, h => by
    rw [List.pairwise_cons] at hs
    simp only [SMap.find?]
    rcases List.mem_cons.1 h with h | h
    · injection h with h1 h2; subst h1 h2; simp
    · have := hs.1 _ h
      have hne : k ≠ k' := by rintro rfl; simp only [keyLt_irrefl] at this; cases this
      rw [if_neg hne]
      exact find_mem hs.2 h

theorem find_none {α : Type} : ∀ {ms : List (Bytes × α)} {k : Bytes}, (∀ v, (k, v) ∉ ms) → SMap.find? k ms = none
  | [], _, _ => rfl
  | (k', v') :: ms, k, h => by
    simp only [SMap.find?]
    rw [if_neg (by rintro rfl; exact h v' (by simp))]
    exact find_none (fun v hv => h v (by simp [hv]))

/-- An integer, as the unsigned 32-bit number it is stored as. -/
def isInt (v : Value) (n : Nat) : Prop := ∃ i, v = .int i ∧ ((n : Int) - i) % 2 ^ 32 = 0 ∧ n < 2 ^ 32

/-- **C84.** An accepted configuration has each setting as the struct says: a member of that name decides it, and must be of the right type; else it
is as in a default configuration. -/
theorem C84_settings (ms : List (Bytes × Value)) (hheld : Held (.struct ms)) (u : Bytes) (cfg : Config) (h : configFromStruct ms = .ok (u, cfg)) :
    Says ms (asc "connectTimeout") isInt 10000 cfg.connectTimeout ∧ Says ms (asc "readTimeout") isInt 10000 cfg.readTimeout ∧
    Says ms (asc "writeTimeout") isInt 1000 cfg.writeTimeout ∧ Says ms (asc "transferMode") isInt 0 cfg.mode ∧
    Says ms (asc "keepAlive") (fun v b => v = .bool b) false cfg.keepAlive ∧ Says ms (asc "useHTTP10") (fun v b => v = .bool b) false cfg.http10 ∧
    Says ms (asc "proxyUrl") (fun v s => v = .string s) [] u := by
  simp only [Held] at hheld
  have hint : ∀ {k d n}, getInt k d ms = .ok n → Says ms k isInt d n := by
    intro k d n hk
    refine ⟨fun v hv => ?_, fun hn => ?_⟩
    · simp only [getInt, find_mem hheld.1 hv] at hk
      split at hk
      · simp_all
      · rename_i i hi
        injection hi with hi
        injection hk with hk
        refine ⟨i, hi, ?_, ?_⟩ <;> (unfold u32 at hk; omega)
      · cases hk
    · simp only [getInt, find_none hn, Except.ok.injEq] at hk
      exact hk.symm
  have hbool : ∀ {k b}, getBool k ms = .ok b → Says ms k (fun v b => v = .bool b) false b := by
    intro k b hk
    refine ⟨fun v hv => ?_, fun hn => ?_⟩
    · simp only [getBool, find_mem hheld.1 hv] at hk
      split at hk
      · simp_all
      · rename_i i hi
        injection hi with hi
        injection hk with hk
        rw [hi, hk]
      · cases hk
    · simp only [getBool, find_none hn, Except.ok.injEq] at hk
      exact hk.symm
  have hstr : ∀ {k s}, getString k ms = .ok s → Says ms k (fun v s => v = .string s) [] s := by
    intro k b hk
    refine ⟨fun v hv => ?_, fun hn => ?_⟩
    · simp only [getString, find_mem hheld.1 hv] at hk
      split at hk
      · simp_all
      · rename_i i hi
        injection hi with hi
        injection hk with hk
        rw [hi, hk]
      · cases hk
    · simp only [getString, find_none hn, Except.ok.injEq] at hk
      exact hk.symm
  simp only [configFromStruct, bind, Except.bind, pure, Except.pure] at h
  split at h
  · cases h
  next x1 h1 =>
  split at h
  · cases h
  next x2 h2 =>
  split at h
  · cases h
  next x3 h3 =>
  split at h
  · cases h
  next x4 h4 =>
  split at h
  · cases h
  next x5 h5 =>
  split at h
  · cases h
  next x6 h6 =>
  split at h
  · cases h
  next x7 h7 =>
  split at h
  · cases h
  next x8 h8 =>
  split at h
  · cases h
  next x9 h9 =>
  injection h with h
  injection h with ha hb
  subst ha hb
  exact ⟨hint h8, hint h2, hint h3, hint h4, hbool h9, hbool h5, hstr h1⟩

example : Held (.struct [(asc "keepAlive", .bool true), (asc "readTimeout", .int 500)]) := by
  simp only [Held, Spec.HeldMembers, IsI64]; decide +kernel
example : configFromStruct [(asc "keepAlive", .bool true), (asc "readTimeout", .int 500)] = .ok ([], ⟨10000, 500, 1000, true, 0, false, ⟨2, 1⟩⟩) := by decide +kernel

/-- **C84.** A member of the wrong type is refused, unless the version text, which is read before, is not usable. -/
theorem C84_wrong_type (ms : List (Bytes × Value)) (hheld : Held (.struct ms)) (k : Bytes) (v : Value) (hm : (k, v) ∈ ms)
    (hk : (k ∈ [asc "connectTimeout", asc "readTimeout", asc "writeTimeout", asc "transferMode"] ∧ ∀ n, v ≠ .int n) ∨
      (k ∈ [asc "keepAlive", asc "useHTTP10"] ∧ ∀ b, v ≠ .bool b) ∨ (k ∈ [asc "proxyUrl", asc "protocolVersion"] ∧ ∀ s, v ≠ .string s)) :
    configFromStruct ms = .error .type ∨ configFromStruct ms = .error .ub := by
  have hno : ∀ x, configFromStruct ms ≠ .ok x := by
    rintro ⟨u, cfg⟩ h
    obtain ⟨h1, h2, h3, h4, h5, h6, h7⟩ := C84_settings ms hheld u cfg h
    simp only [List.mem_cons, List.not_mem_nil, or_false] at hk
    rcases hk with ⟨rfl | rfl | rfl | rfl, hv⟩ | ⟨rfl | rfl, hv⟩ | ⟨rfl | rfl, hv⟩
    · obtain ⟨i, hi, _⟩ := h1.there v hm; exact hv i hi
    · obtain ⟨i, hi, _⟩ := h2.there v hm; exact hv i hi
    · obtain ⟨i, hi, _⟩ := h3.there v hm; exact hv i hi
    · obtain ⟨i, hi, _⟩ := h4.there v hm; exact hv i hi
    · exact hv _ (h5.there v hm)
    · exact hv _ (h6.there v hm)
    · exact hv _ (h7.there v hm)
    · simp only [Held] at hheld
      have := find_mem hheld.1 hm
      simp only [configFromStruct, bind, Except.bind, pure, Except.pure] at h
      repeat' split at h
      all_goals first | cases h | skip
      rename_i h6 _ _ _ _ _ _
      simp only [getString, this] at *
      grind
  have herr : ∀ e, configFromStruct ms = .error e → e = .type ∨ e = .ub := by
    intro e h
    have hi : ∀ {k d e}, getInt k d ms = .error e → e = .type := by
      intro k d e h; unfold getInt at h; split at h <;> cases h; rfl
    have hb : ∀ {k e}, getBool k ms = .error e → e = .type := by
      intro k e h; unfold getBool at h; split at h <;> cases h; rfl
    have hs : ∀ {k e}, getString k ms = .error e → e = .type := by
      intro k e h; unfold getString at h; split at h <;> cases h; rfl
    have hp : ∀ {s e}, parseVersion s = .error e → e = .ub := by
      intro s e h
      have hr : ∀ {s e}, readChar s = .error e → e = .ub := by
        intro s e h; unfold readChar at h; split at h <;> cases h; rfl
      unfold parseVersion at h
      split at h
      · cases h
      · simp only [bind, Except.bind, pure, Except.pure] at h
        repeat' split at h
        all_goals cases h
        all_goals exact hr (by assumption)
    simp only [configFromStruct, bind, Except.bind, pure, Except.pure] at h
    repeat' split at h
    all_goals cases h
    all_goals first
      | exact .inl (hi (by assumption))
      | exact .inl (hb (by assumption))
      | exact .inl (hs (by assumption))
      | exact .inr (hp (by assumption))
  cases h : configFromStruct ms with
  | ok x => exact absurd h (hno x)
  | error e =>
    rcases herr e h with rfl | rfl
    · exact .inl rfl
    · exact .inr rfl

example : configFromStruct [(asc "keepAlive", .int 1)] = .error .type := by decide +kernel
end Frpc
