import Verif.Proofs.PyText
import Verif.Proofs.XmlParser
/-!
# C124: `dumps` and `loads` of Python in XML, and the choice of the format

`dumpsXml` is `fastrpc.dumps` as it is called by default; `loads o env P useBinary` is `fastrpc.loads`, where `useBinary` is none if it is left out. The
parser is any that reports a document as soon as it has got it whole (`Spec.Xml.Prompt`).
-/
namespace Frpc
namespace Python
open Spec.Xml Spec.XmlRpc XmlMarshaller XmlUnMarshaller BinUnMarshaller
open Spec (isUtf8 plainWith plainItemsWith)
open Spec.Python (Carried CarriedItems Proper ProperItems Small SmallItems back backItems shows showsItems means meansItems)

variable {o : Opts} {L : DateTimeMake.Libc} {env : XmlUnMarshaller.Env} {P : Spec.Xml.Parser} {dbl : BitVec 64 → Bytes}

/-- What is asked of an object that is to come back through XML as it was: integers that are written and read; texts of characters of XML without CR; numbers whose
text gives them back; date-times whose fields fit into the text, and whose week day and time stamp, which the text does not carry, are those that the receiver makes. -/
def textNeed (o : Opts) (ver : Version) (env : XmlUnMarshaller.Env) (dbl : BitVec 64 → Bytes) : Spec.XmlRpc.Need :=
  { xmlNeed ver env dbl with date := fun d => Dated d ∧ newDateTime o.L (undated d) = d }

theorem versionOf_text {major minor : Int} (h : 0 ≤ major ∧ major ≤ 3) : XmlMarshaller.accepts (versionOf major minor) = true := by
  have : major = 0 ∨ major = 1 ∨ major = 2 ∨ major = 3 := by omega
  have h1 : (versionOf major minor).major = UInt8.ofNat (u32 major) := rfl
  unfold XmlMarshaller.accepts
  rw [h1]
  rcases this with rfl | rfl | rfl | rfl <;> decide

/-- `dumps` whose script goes through. -/
theorem dumpsXml_of {major minor : Int} (hmaj : 0 ≤ major ∧ major ≤ 3) (hmin : 0 ≤ minor) {method : Option Bytes} (hm : (0 : UInt8) ∉ method.getD []) {params : Params} {ops : List PackOp}
    (hs : script L method params = ((ops, none), false)) {ws : List Bytes} (hr : XmlMarshaller.run dbl (versionOf major minor) ops = (ws, none)) (hu : isUtf8 ws.flatten = true) :
    dumpsXml L dbl major minor method params = .ok ws.flatten := by
  unfold dumpsXml
  rw [if_neg (by simpa using hm), if_neg (by omega), if_neg (by rw [versionOf_text hmaj]; decide)]
  simp only [hs, hr, outcome, Bool.false_eq_true, if_false, decodes, hu, if_true]

/-- The format is chosen by the first two bytes. -/
theorem readBy_detect {data : Bytes} (h4 : 4 ≤ data.length) (hlen : data.length < 2 ^ 32) (useBinary : Option Bool) :
    readBy o env P useBinary data =
      if useBinary = some true ∨ (useBinary = none ∧ data.take 2 = [0xCA, 0x11]) then readBinary (builder o) init data else readXml env P (builder o) init data := by
  have hz : sz32 data.length = data.length := by unfold sz32; exact Nat.mod_eq_of_lt hlen
  unfold readBy
  rw [hz]
  cases useBinary with
  | some u => cases u <;> simp
  | none =>
    unfold detect
    rw [if_neg (by omega)]
    obtain ⟨x, y, r, rfl⟩ : ∃ x y r, data = x :: y :: r := by
      match data, h4 with
      | x :: y :: r, _ => exact ⟨x, y, r, rfl⟩
    simp only [byMagic, List.cons_append]
    have ht : (x :: y :: (r ++ [0])).take (x :: y :: r).length = x :: y :: r := by simp
    rw [ht]
    by_cases hc : x = 0xCA ∧ y = 0x11
    · rw [if_pos hc, if_pos (by simp [hc.1, hc.2])]
    · rw [if_neg hc, if_neg (by
        rintro (h | ⟨-, h⟩)
        · cases h
        · simp at h; exact hc h)]

/-- **C124 (choice).** `loads` of at least four bytes takes them as binary if they begin with the two bytes that every binary message begins with, and as XML
otherwise, unless it is told which it is to be. -/
theorem C124_choice (data : Bytes) (h4 : 4 ≤ data.length) (hlen : data.length < 2 ^ 32) :
    (data.take 2 = [0xCA, 0x11] → loads o env P none data = loads o env P (some true) data) ∧
    (data.take 2 ≠ [0xCA, 0x11] → loads o env P none data = loads o env P (some false) data) ∧
    loads o env P (some true) data = loadsBinary o data := by
  unfold loads
  refine ⟨fun h => ?_, fun h => ?_, ?_⟩
  · rw [readBy_detect h4 hlen, readBy_detect h4 hlen, if_pos (.inr ⟨rfl, h⟩), if_pos (.inl rfl)]
  · rw [readBy_detect h4 hlen, readBy_detect h4 hlen, if_neg (by simp [h]), if_neg (by simp)]
  · unfold readBy loadsBinary readBinary
    simp only
    generalize BinUnMarshaller.unMarshall (builder o) .any BinUnMarshaller.init init (data.take (sz32 data.length)) = q
    obtain ⟨a, b, c⟩ := q
    cases c <;> rfl

example : (asc "<?xml?>").take 2 ≠ [0xCA, 0x11] ∧ 4 ≤ (asc "<?xml?>").length := by decide +kernel

/-- **C124 (choice, fewer than four bytes).** What is shorter than four bytes is taken for XML first, whatever it begins with: what that reports is built, and if it fails, that is the
failure. Then it is given again, to the unmarshaller that its first two bytes call for, which builds on. -/
theorem C124_short (x y : UInt8) (r : Bytes) (h4 : (x :: y :: r).length < 4) {β : Type} (B : Builder β) (b b' : β) (rest : Bytes) :
    (∀ e, readXml env P B b (x :: y :: r) = (b', some e) → detect env P B b (x :: y :: r ++ rest) (x :: y :: r).length = (b', some e)) ∧
    (readXml env P B b (x :: y :: r) = (b', none) → x = 0xCA ∧ y = 0x11 →
      detect env P B b (x :: y :: r ++ rest) (x :: y :: r).length = readBinary B b' (x :: y :: r)) ∧
    (readXml env P B b (x :: y :: r) = (b', none) → ¬ (x = 0xCA ∧ y = 0x11) →
      detect env P B b (x :: y :: r ++ rest) (x :: y :: r).length = readXml env P B b' (x :: y :: r)) := by
  have ht : (x :: y :: (r ++ rest)).take (x :: y :: r).length = x :: y :: r := by simp
  unfold detect
  rw [if_pos h4]
  simp only [List.cons_append]
  rw [ht]
  refine ⟨fun e h => ?_, fun h hm => ?_, fun h hm => ?_⟩
  · rw [h]
  · rw [h]
    simp only [byMagic]
    rw [if_pos hm, ht]
  · rw [h]
    simp only [byMagic]
    rw [if_neg hm, ht]

/-- **C124 (text).** Whatever `dumps(.., useBinary=False)` returns is UTF-8, for it is a `str`. -/
theorem C124_utf8 (major minor : Int) (method : Option Bytes) (params : Params) (data : Bytes) (hd : dumpsXml L dbl major minor method params = .ok data) : isUtf8 data = true := by
  revert hd
  unfold dumpsXml
  by_cases h1 : (method.getD []).contains 0 = true
  · rw [if_pos h1]; intro h; cases h
  rw [if_neg h1]
  by_cases h2 : major < 0 ∨ minor < 0
  · rw [if_pos h2]; intro h; cases h
  rw [if_neg h2]
  by_cases h3 : XmlMarshaller.accepts (versionOf major minor) = false
  · rw [if_pos h3]; intro h; cases h
  rw [if_neg h3]
  simp only
  generalize outcome _ _ _ _ = q
  cases q with
  | error e => intro h; cases h
  | ok t =>
    simp only
    by_cases h4 : decodes t = true
    · rw [if_pos h4]; intro h; cases h; exact h4
    · rw [if_neg h4]; intro h; cases h

theorem magic_first {strOk : Bytes → Bool} {ver : Version} {op : PackOp} {ops : List PackOp} {a : Bytes} {r : List Bytes}
    (h : (BinMarshaller.pack strOk ver op).1 = a :: r) : ∃ t, (BinMarshaller.run strOk ver (op :: ops)).1.flatten = a ++ t := by
  unfold BinMarshaller.run
  generalize BinMarshaller.pack strOk ver op = q at h ⊢
  obtain ⟨ws, e⟩ := q
  simp only at h
  subst h
  cases e with
  | none => exact ⟨(r ++ (BinMarshaller.run strOk ver ops).1).flatten, by simp only [List.cons_append, List.flatten_cons]⟩
  | some e => exact ⟨r.flatten, by simp only [List.flatten_cons]⟩

/-- **C124 (binary messages are known as such).** Whatever `dumps(.., useBinary=True)` returns, `loads` takes as binary without being told. -/
theorem C124_binary_known (strOk : Bytes → Bool) (major minor : Int) (method : Option Bytes) (params : Params) (data : Bytes) (hlen : data.length < 2 ^ 32)
    (hd : dumpsBinary L strOk major minor method params = .ok data) : loads o env P none data = loadsBinary o data := by
  obtain ⟨h1, h2, h3, h4⟩ := dumps_ok hd
  have hx : ∃ t, data = BinMarshaller.packMagic (versionOf major minor) ++ t := by
    rw [h4]
    cases params with
    | seq xs =>
      cases method with
      | some name =>
        simp only [script, andThen] at h1 ⊢
        simp only [List.cons_append, List.nil_append] at h1 ⊢
        have hn := name_of_run h1
        refine magic_first (a := BinMarshaller.packMagic (versionOf major minor)) (r := [[BinMarshaller.dataType T_CALL 0], [UInt8.ofNat name.length], name]) ?_
        have hc : (decide (name.length > 255) || name.length == 0) = false := by
          rw [Bool.or_eq_false_iff]; exact ⟨decide_eq_false (by omega), beq_eq_false_iff_ne.2 (by omega)⟩
        simp only [BinMarshaller.pack, hc]; rfl
      | none =>
        cases xs with
        | nil => exact magic_first (r := [[BinMarshaller.dataType T_RESPONSE 0]]) rfl
        | cons x xs =>
          simp only [script, andThen, List.cons_append, List.nil_append]
          exact magic_first (r := [[BinMarshaller.dataType T_RESPONSE 0]]) rfl
    | fault c m =>
      cases c with
      | none => simp [script] at h2
      | some c =>
        cases m with
        | none => simp [script] at h2
        | some m =>
          simp only [script] at h1 h3 ⊢
          by_cases hc : -(2 : Int) ^ 63 ≤ c ∧ c < 2 ^ 63
          · simp only [if_pos hc]
            exact magic_first (r := _) rfl
          · simp only [if_neg hc] at h3
            cases h3
    | other => simp [script] at h2
  obtain ⟨t, ht⟩ := hx
  have h5 : 4 ≤ data.length ∧ data.take 2 = [0xCA, 0x11] := by
    rw [ht]; simp [BinMarshaller.packMagic]
  obtain ⟨c1, c2, c3⟩ := C124_choice (o := o) (env := env) (P := P) data h5.1 hlen
  rw [c1 h5.2, c3]

/-- `loads` of a document of this library. -/
theorem loads_text {data : Bytes} (hx : ∃ r, data = asc "<?xml" ++ r) (hlen : data.length < 2 ^ 32) {pb : PB} (hr : readXml env P (builder o) init data = (pb, none))
    {useBinary : Option Bool} (hu : useBinary ≠ some true) : loads o env P useBinary data = answer pb := by
  obtain ⟨r, rfl⟩ := hx
  have h4 : 4 ≤ (asc "<?xml" ++ r).length := by
    rw [List.length_append]; have : (asc "<?xml").length = 5 := by decide +kernel
    omega
  have hn : (asc "<?xml" ++ r).take 2 ≠ [0xCA, 0x11] := by
    rw [List.take_append_of_le_length (by decide +kernel)]; decide +kernel
  unfold loads
  rw [readBy_detect h4 hlen, if_neg (by
    rintro (h | ⟨-, h⟩)
    · exact hu h
    · exact hn h), hr]

theorem leaves_of {ver : Version} {v : Value} (h : Leaves (textNeed o ver env dbl) v) : Leaves (xmlNeed ver env dbl) v := by
  have := messageLeaves_mono (N := textNeed o ver env dbl) (N' := xmlNeed ver env dbl) (fun n h => h) (fun _ h => h) (fun _ h => h) (fun _ h => h.1) (.response v) h
  exact this

theorem int_of {ver : Version} (n : Int) (h : (textNeed o ver env dbl).int n) : IsI64 n := h.2.1

/-- **C124 (responses, partial).** `dumps((x,))` of an object that XML can carry returns a text, and `loads` of that text, told that it is XML or not, returns the object:
tuples come back as lists, `Boolean`s as `bool`s, everything else as it was.
Missing: texts with a CR (`C124_cr_violated`) or with characters that XML has not, week days and time stamps (`C124_stamp_violated`), the least 64-bit integer
(`C124_least_violated`), `datetime` objects. -/
theorem C124_response_partial (hp : Plain o) (hP : Prompt P) (major minor : Int) (hmaj : 0 ≤ major ∧ major ≤ 3) (hmin : 0 ≤ minor) (x : Py) (hx : Proper x) (hs : Small x)
    (hc : Carried (textNeed o (versionOf major minor) env dbl) x) :
    ∃ data, dumpsXml L dbl major minor none (.seq [x]) = .ok data ∧
      (data.length < 2 ^ 32 → ∀ useBinary, useBinary ≠ some true → loads o env P useBinary data = .ok (back x, none)) := by
  obtain ⟨v, hm, hl⟩ := means_carried (int_of (o := o) (env := env) (dbl := dbl)) x hc
  obtain ⟨hld, hb⟩ := means_back (N := eachOf (textNeed o (versionOf major minor) env dbl)) (fun k h => (text_utf8 h.1).2.2) (f := xmlDate o) (fun d h => h.2) x v hm hx (each_carried x hc)
  obtain ⟨m, hmv⟩ := xml_value hp v hld init ⟨rfl, by intro s ms fs h; simp [init] at h⟩
  have ha : applyEvents (builder o) init (Message.response v).calls = ({ place init (shows (plainWith (xmlDate o) v)) with memberName := m }, none) := by
    simp only [Message.calls]
    rw [applyEvents_cons (b' := init) rfl, hmv]
  have hl' := leaves_of hl
  obtain ⟨ws, h1, h2, h3, h4⟩ := own_text (env := env) hP (msg := .response v) (versionOf_text (minor := minor) hmaj) (means_small x v hm hs) hl'
    (ints_of (N := xmlNeed (versionOf major minor) env dbl) (fun n h => h.2) v hl') ha
  refine ⟨ws.flatten, dumpsXml_of hmaj hmin (by simp) (ops := ops (.response v)) ?_ h1 h2, fun hlen u hu => ?_⟩
  · simp only [script, feed_means (L := L) x v hm hs, andThen]
    rfl
  · rw [loads_text h3 hlen h4 hu, answer_value (v := plainWith (xmlDate o) v) rfl rfl rfl rfl, hb]

/-- **C124 (calls, partial).** `dumps(args, name)` is a text which is loaded as the tuple of the arguments and the name. Missing: as in `C124_response_partial`. -/
theorem C124_call_partial (hp : Plain o) (hP : Prompt P) (major minor : Int) (hmaj : 0 ≤ major ∧ major ≤ 3) (hmin : 0 ≤ minor) (name : Bytes) (hn : 1 ≤ name.length ∧ name.length ≤ 255)
    (hnt : IsXmlText name ∧ (13 : UInt8) ∉ name) (xs : List Py) (hmany : xs.length < 2 ^ 30) (hx : ProperItems xs) (hs : SmallItems xs)
    (hc : CarriedItems (textNeed o (versionOf major minor) env dbl) xs) :
    ∃ data, dumpsXml L dbl major minor (some name) (.seq xs) = .ok data ∧
      (data.length < 2 ^ 32 → ∀ useBinary, useBinary ≠ some true → loads o env P useBinary data = .ok (.tuple (backItems xs), some name)) := by
  obtain ⟨vs, hm, hl⟩ := means_carried_items (int_of (o := o) (env := env) (dbl := dbl)) xs hc
  obtain ⟨hld, hb⟩ := means_back_items (N := eachOf (textNeed o (versionOf major minor) env dbl)) (fun k h => (text_utf8 h.1).2.2) (f := xmlDate o) (fun d h => h.2) xs vs hm hx
    (each_carried_items xs hc)
  obtain ⟨pb, ha, he, hmn, hsn⟩ := xml_call hp name vs hld
  have hl' : (Message.call name vs).Leaves (xmlNeed (versionOf major minor) env dbl) :=
    messageLeaves_mono (N := textNeed o (versionOf major minor) env dbl) (N' := xmlNeed (versionOf major minor) env dbl) (fun n h => h) (fun _ h => h) (fun _ h => h) (fun _ h => h.1) (.call name vs) ⟨hn, hnt, hl⟩
  obtain ⟨ws, h1, h2, h3, h4⟩ := own_text (env := env) hP (msg := .call name vs) (versionOf_text (minor := minor) hmaj) (means_small_items xs vs hm hs) hl'
    (ints_of_items (N := xmlNeed (versionOf major minor) env dbl) (fun n h => h.2) vs hl'.2.2) ha
  refine ⟨ws.flatten, dumpsXml_of (method := some name) hmaj hmin (text_utf8 hnt.1).2.2 (ops := ops (.call name vs)) ?_ h1 h2, fun hlen u hu => ?_⟩
  · simp only [script, argc_small hmany, Int.toNat_natCast, feed_items (L := L) xs vs hm hs, andThen]
    rfl
  · rw [loads_text h3 hlen h4 hu]
    unfold answer
    simp only [he, hmn, hsn, toTuple, decodes, (text_utf8 hnt.1).1, if_true, hb]

/-- **C124 (faults, partial).** `dumps(Fault(code, msg))` is a text, and `loads` of it raises that fault. Missing: codes of more than 32 bits, and at protocol 1 the least of them. -/
theorem C124_fault_partial (hP : Prompt P) (major minor : Int) (hmaj : 0 ≤ major ∧ major ≤ 3) (hmin : 0 ≤ minor) (code : Int) (hc : IsI32 code) (hc1 : major < 2 → code ≠ -2 ^ 31)
    (msg : Bytes) (hm : IsXmlText msg) (hcr : (13 : UInt8) ∉ msg) (hsm : msg.length < 2 ^ 30) (method : Option Bytes) (hmt : (0 : UInt8) ∉ method.getD []) :
    ∃ data, dumpsXml L dbl major minor method (.fault (some code) (some msg)) = .ok data ∧
      (data.length < 2 ^ 32 → ∀ useBinary, useBinary ≠ some true → loads o env P useBinary data = .error (.fault code msg)) := by
  have ha : applyEvents (builder o) init (Message.fault code msg).calls = ({ init with ret := .fault code msg, first := true }, none) := by
    refine applyEvents_one ?_
    simp [builder, build, buildFault, init, decodes, (text_utf8 hm).1]
  have hint : XmlInt (versionOf major minor) code ∧ readable env.erange code := by
    unfold IsI32 at hc
    refine ⟨⟨by omega, fun h => ?_⟩, by unfold IsI64; omega, fun _ => by omega⟩
    have : major < 2 := by
      have h1 : (versionOf major minor).major = UInt8.ofNat (u32 major) := rfl
      rw [h1] at h
      have : major = 0 ∨ major = 1 ∨ major = 2 ∨ major = 3 := by omega
      rcases this with rfl | rfl | rfl | rfl
      · decide
      · decide
      · exact absurd h (by decide)
      · exact absurd h (by decide)
    have := hc1 this
    omega
  obtain ⟨ws, h1, h2, h3, h4⟩ := own_text (env := env) (dbl := dbl) hP (msg := .fault code msg) (versionOf_text (minor := minor) hmaj) trivial ⟨hint, hm, hcr⟩ hc ha
  have hr : -(2 : Int) ^ 63 ≤ code ∧ code < 2 ^ 63 := by unfold IsI32 at hc; omega
  refine ⟨ws.flatten, dumpsXml_of hmaj hmin hmt (ops := ops (.fault code msg)) ?_ h1 h2, fun hlen u hu => ?_⟩
  · simp only [script, if_pos hr, i32_u32 hc, sz32_take hsm]
    rfl
  · rw [loads_text h3 hlen h4 hu]
    rfl

/-- **C124 (nothing).** `dumps(())`, a response without a value, is loaded as `None`. -/
theorem C124_nothing (hP : Prompt P) (major minor : Int) (hmaj : 0 ≤ major ∧ major ≤ 3) (hmin : 0 ≤ minor) :
    ∃ data, dumpsXml L dbl major minor none (.seq []) = .ok data ∧ ∀ useBinary, useBinary ≠ some true → loads o env P useBinary data = .ok (.none, none) := by
  have key : ∀ ver : Version, Spec.Xml.read xmlChar (XmlMarshaller.packMagic ver ++ asc "<methodResponse>\n<params>\n</params>\n</methodResponse>\n") =
      some [.start (asc "methodResponse"), .text [10], .start (asc "params"), .text [10], .stop (asc "params"), .text [10], .stop (asc "methodResponse")] ∧
      isUtf8 (XmlMarshaller.packMagic ver ++ asc "<methodResponse>\n<params>\n</params>\n</methodResponse>\n") = true ∧
      (∃ v, sniff (XmlMarshaller.packMagic ver ++ asc "<methodResponse>\n<params>\n</params>\n</methodResponse>\n") XmlUnMarshaller.init =
        ({ XmlUnMarshaller.init with ver := v, check := false }, none)) ∧
      (∃ r, XmlMarshaller.packMagic ver ++ asc "<methodResponse>\n<params>\n</params>\n</methodResponse>\n" = asc "<?xml" ++ r) ∧
      (XmlMarshaller.packMagic ver ++ asc "<methodResponse>\n<params>\n</params>\n</methodResponse>\n").length < 2 ^ 32 := by
    intro ver
    unfold XmlMarshaller.packMagic
    split
    · exact ⟨by decide +kernel, by decide +kernel, ⟨⟨2, 1⟩, by decide +kernel⟩,
        ⟨asc " version=\"1.0\"?>\n<methodResponse>\n<params>\n</params>\n</methodResponse>\n", by decide +kernel⟩, by decide +kernel⟩
    · split
      · exact ⟨by decide +kernel, by decide +kernel, ⟨⟨2, 0⟩, by decide +kernel⟩,
          ⟨asc " version=\"1.0\"?>\n<!--protocolVersion=\"2.0\"-->\n<methodResponse>\n<params>\n</params>\n</methodResponse>\n", by decide +kernel⟩, by decide +kernel⟩
      · exact ⟨by decide +kernel, by decide +kernel, ⟨⟨2, 1⟩, by decide +kernel⟩,
          ⟨asc " version=\"1.0\"?>\n<!--protocolVersion=\"2.1\"-->\n<methodResponse>\n<params>\n</params>\n</methodResponse>\n", by decide +kernel⟩, by decide +kernel⟩
  obtain ⟨h1, h3, ⟨v, h4⟩, h5, h6⟩ := key (versionOf major minor)
  obtain ⟨p1, p2⟩ := hP _ _ h1
  refine ⟨XmlMarshaller.packMagic (versionOf major minor) ++ asc "<methodResponse>\n<params>\n</params>\n</methodResponse>\n", ?_, fun u hu => ?_⟩
  · have hr : ∃ ws, XmlMarshaller.run dbl (versionOf major minor) [.packMethodResponse] = (ws, none) ∧
        ws.flatten = XmlMarshaller.packMagic (versionOf major minor) ++ asc "<methodResponse>\n<params>\n</params>\n</methodResponse>\n" := by
      unfold XmlMarshaller.run
      rw [versionOf_text hmaj]
      refine ⟨_, rfl, ?_⟩
      simp [XmlMarshaller.flush, XmlMarshaller.packAll, XmlMarshaller.new, asc]
    obtain ⟨ws, g1, g2⟩ := hr
    rw [← g2]
    exact dumpsXml_of hmaj hmin (by simp) rfl g1 (by rw [g2]; exact h3)
  · have hr : readXml env P (builder o) init (XmlMarshaller.packMagic (versionOf major minor) ++ asc "<methodResponse>\n<params>\n</params>\n</methodResponse>\n") = (init, none) := by
      unfold readXml
      rw [h4]
      simp only [XmlUnMarshaller.unMarshall, h4, p1]
      rw [← saxAll_canon, p2, saxAll_canon]
      rfl
    rw [loads_text h5 h6 hr hu]
    rfl

/-! ## Witnesses -/

/-- The environment of the examples: every text is the number 7. -/
def textEnv : XmlUnMarshaller.Env := ⟨fun s => (7, s.length), false⟩

/-- The C library of the examples: it knows the one time of day. -/
def noonOpts : Opts := ⟨⟨fun _ => ⟨123, 10, 14, 23, 13, 20, 2, 0⟩, fun t => (1700000000, { t with wday := 2 }), -3600⟩, true, none⟩

/-- An object with one of everything. -/
def textSample : Py :=
  .dict [(.str (asc "b"), .tuple [.int (-5), .none, .boolean true, .str [0xC3, 0xA9, 60, 38]]), (.str (asc "a"), .bytes [0, 255]),
    (.str [0xC3, 0xA9], .dateTime (newDateTime noonOpts.L (undated ⟨2023, 11, 14, 23, 13, 20, 0, 0, -3600⟩))), (.str (asc "c"), .list [.dict [], .float 7])]

theorem accent_text : IsXmlText [0xC3, 0xA9] ∧ IsXmlText [0xC3, 0xA9, 60, 38] := by
  have h1 : ∃ n, Spec.codePoint [0xC3, 0xA9] = some (n, 2) ∧ Spec.isXmlChar n = true := ⟨233, by decide, by decide⟩
  refine ⟨⟨[[0xC3, 0xA9]], by decide, ?_⟩, ⟨[[0xC3, 0xA9], [60], [38]], by decide, ?_⟩⟩
  · intro p hp
    rw [List.mem_singleton.1 hp]
    exact h1
  · intro p hp
    simp only [List.mem_cons, List.not_mem_nil, or_false] at hp
    rcases hp with rfl | rfl | rfl
    · exact h1
    · exact ⟨60, by decide, by decide⟩
    · exact ⟨38, by decide, by decide⟩

/-- The hypotheses hold of it. -/
theorem textSample_ok : Proper textSample ∧ Small textSample ∧ Carried (textNeed noonOpts (versionOf 2 1) textEnv xmlExampleDbl) textSample := by
  have h : ∀ t : Bytes, (∀ c ∈ t, (c.toNat < 128 ∧ Spec.isXmlChar c.toNat = true) ∧ c ≠ 13) → IsXmlText t ∧ (13 : UInt8) ∉ t :=
    fun t ht => ⟨xmlText_ascii (fun c hc => (ht c hc).1), fun hc => (ht _ hc).2 rfl⟩
  refine ⟨?_, ?_, ?_⟩
  · unfold textSample
    simp only [Proper, ProperItems, Spec.Python.ProperMembers, and_true, true_and]
    refine ⟨by decide, ?_, ⟨by decide, ?_, ⟨?_, by unfold IsI64; decide, ?_, by decide⟩⟩⟩
    all_goals (intro s h; cases h; decide)
  · unfold textSample
    simp only [Small, SmallItems, Spec.Python.SmallMembers, and_true, true_and]
    refine ⟨by decide, ?_, ⟨by decide, by decide⟩, ?_, by decide, ?_, ?_, by decide, by decide⟩
    all_goals (intro s h; cases h; decide)
  · unfold textSample
    simp only [Carried, CarriedItems, Spec.Python.CarriedMembers, textNeed, xmlNeed, and_true, true_and]
    refine ⟨by decide, h _ (by decide +kernel), ⟨⟨⟨by decide, by decide⟩, ⟨by unfold IsI64; decide, by decide⟩⟩,
      ⟨accent_text.2, by decide⟩⟩, by decide, h _ (by decide +kernel), by decide, ⟨accent_text.1, by decide⟩,
      ⟨by unfold Dated; decide, by decide⟩, by decide, h _ (by decide +kernel), by unfold PlainText; decide +kernel, rfl⟩

example : ∃ data, dumpsXml noLibc xmlExampleDbl 2 1 none (.seq [textSample]) = .ok data ∧
    (data.length < 2 ^ 32 → ∀ u, u ≠ some true → loads noonOpts textEnv XmlParser.eager u data = .ok (back textSample, none)) :=
  C124_response_partial ⟨rfl, rfl⟩ eager_prompt 2 1 (by decide) (by decide) textSample textSample_ok.1 textSample_ok.2.1 textSample_ok.2.2

example : ∃ data, dumpsXml noLibc xmlExampleDbl 1 0 (some (asc "m")) (.seq [textSample, .int 3]) = .ok data ∧
    (data.length < 2 ^ 32 → ∀ u, u ≠ some true → loads noonOpts textEnv XmlParser.eager u data = .ok (.tuple [back textSample, .int 3], some (asc "m"))) := by
  refine C124_call_partial ⟨rfl, rfl⟩ eager_prompt 1 0 (by decide) (by decide) (asc "m") (by decide) ⟨xmlText_ascii (by decide +kernel), by decide⟩ _ (by decide)
    (by simp [ProperItems, Proper, textSample_ok.1]) (by simp [SmallItems, Small, textSample_ok.2.1]) ?_
  have h : ∀ t : Bytes, (∀ c ∈ t, (c.toNat < 128 ∧ Spec.isXmlChar c.toNat = true) ∧ c ≠ 13) → IsXmlText t ∧ (13 : UInt8) ∉ t :=
    fun t ht => ⟨xmlText_ascii (fun c hc => (ht c hc).1), fun hc => (ht _ hc).2 rfl⟩
  unfold textSample
  simp only [Carried, CarriedItems, Spec.Python.CarriedMembers, textNeed, xmlNeed, and_true, true_and]
  refine ⟨⟨by decide, h _ (by decide +kernel), ⟨⟨⟨by decide, by decide⟩, ⟨by unfold IsI64; decide, by decide⟩⟩,
    ⟨accent_text.2, by decide⟩⟩, by decide, h _ (by decide +kernel), by decide, ⟨accent_text.1, by decide⟩,
    ⟨by unfold Dated; decide, by decide⟩, by decide, h _ (by decide +kernel), by unfold PlainText; decide +kernel, rfl⟩,
    ⟨by decide, by decide⟩, by unfold IsI64; decide, by decide⟩

example : ∃ data, dumpsXml noLibc xmlExampleDbl 3 0 none (.fault (some 5) (some (asc "no & no"))) = .ok data ∧
    (data.length < 2 ^ 32 → ∀ u, u ≠ some true → loads noonOpts textEnv XmlParser.eager u data = .error (.fault 5 (asc "no & no"))) :=
  C124_fault_partial eager_prompt 3 0 (by decide) (by decide) 5 (by unfold IsI32; decide) (by decide) _ (xmlText_ascii (by decide +kernel)) (by decide) (by decide) none (by decide)

example : loads plainOpts textEnv XmlParser.eager none [0xCA, 0x11, 2, 1, 0x70, 0x38, 5] = loadsBinary plainOpts [0xCA, 0x11, 2, 1, 0x70, 0x38, 5] :=
  C124_binary_known (L := noLibc) (fun _ => true) 2 1 none (.seq [.int 5]) _ (by decide) (by rfl)

/-- A parser that finds an error in everything but "ab", of which it reports the start of an element. -/
def shortParser : Spec.Xml.Parser := fun _ d => if d = asc "ab" then ([.start (asc "methodResponse")], false) else ([], true)

/-- The two bytes of the magic alone are an error of the parser; other short data is read twice, the second time on top of the first. -/
example : (readXml textEnv shortParser (builder plainOpts) init [0xCA, 0x11]).2 = some .runtime ∧
    (detect textEnv shortParser (builder plainOpts) init ([0xCA, 0x11] ++ [0]) 2).2 = some .runtime ∧
    (readXml textEnv shortParser (builder plainOpts) init (asc "ab")).2 = none := by
  refine ⟨rfl, rfl, rfl⟩

/-! ## Where it fails -/

/-- **C124 is violated** by a CR: it comes back as LF, whatever the parser. -/
theorem C124_cr_violated (hp : Plain o) (hP : Prompt P) (major minor : Int) (hmaj : 0 ≤ major ∧ major ≤ 3) (hmin : 0 ≤ minor) :
    ∃ data, dumpsXml L dbl major minor none (.seq [.str [13]]) = .ok data ∧
      (data.length < 2 ^ 32 → ∀ useBinary, useBinary ≠ some true → loads o env P useBinary data = .ok (.str [10], none)) := by
  have hv := versionOf_text (minor := minor) hmaj
  have hl : (Message.response (.string [13])).Leaves ⟨XmlInt (versionOf major minor), IsXmlText, fun x => PlainText (dbl x), fun _ => True⟩ :=
    xmlText_ascii (by decide)
  obtain ⟨ws, root, h1, h2, h3⟩ := C29_document_xml dbl (versionOf major minor) hv (.response (.string [13])) (by simp [SmallMessage, Spec.Small]) hl
  obtain ⟨ws', h1', h2'⟩ := run_message dbl hv (.response (.string [13])) (by simp [SmallMessage, Spec.Small])
    (messageLeaves_mono (N' := needs (versionOf major minor)) (fun n (h : XmlInt (versionOf major minor) n) => h) (fun _ _ => trivial) (fun _ _ => trivial) (fun _ _ => trivial) _ hl)
  rw [h1] at h1'
  cases h1'
  have his : (Message.response (.string [10])).Is (understood env.strtod) root := by
    obtain ⟨c, p, rfl, hc, a, r, val, hp, ha, hs, hr⟩ := h3
    refine ⟨c, p, rfl, hc, a, r, val, hp, ha, ?_, hr⟩
    simp only [Stands] at hs ⊢
    obtain ⟨t, ht, hs⟩ := hs
    exact ⟨t, ht.trans (by decide), hs⟩
  have hnoq := noq_message (N := ⟨XmlInt (versionOf major minor), IsXmlText, fun x => PlainText (dbl x), fun _ => True⟩) (dbl := dbl) (fun x h => noq_plain (plain_of h)) _ hl
  have hm : ∃ m, XmlMarshaller.packMagic (versionOf major minor) = asc "<?xml" ++ m ∧ isUtf8 (XmlMarshaller.packMagic (versionOf major minor)) = true := by
    unfold XmlMarshaller.packMagic
    split
    · exact ⟨asc " version=\"1.0\"?>\n", by decide +kernel, utf_all (by decide +kernel)⟩
    · split
      · exact ⟨asc " version=\"1.0\"?>\n<!--protocolVersion=\"2.0\"-->\n", by decide +kernel, utf_all (by decide +kernel)⟩
      · exact ⟨asc " version=\"1.0\"?>\n<!--protocolVersion=\"2.1\"-->\n", by decide +kernel, utf_all (by decide +kernel)⟩
  obtain ⟨m, m1, m2⟩ := hm
  have hne : ws.flatten ≠ [] := by rw [h2', m1]; simp [asc]
  have hs := sniff_own (d := ws.flatten) (r := []) hnoq (by simpa using h2') hne
  have hb : applyEvents (builder o) init (Message.response (.string [10])).calls = ({ place init (shows (.string [10])) with memberName := init.memberName }, none) := by
    obtain ⟨m, hmv⟩ := xml_value hp (.string [10]) (by unfold Spec.Python.Loadable; decide) init ⟨rfl, by intro s ms fs h; simp [init] at h⟩
    simp only [Message.calls]
    rw [applyEvents_cons (b' := init) rfl]
    rfl
  have hr := readXml_document hP h2 his (by simp [Message.IntsAll, IntsAll]) hs hb
  have hu : isUtf8 ws.flatten = true := by
    rw [h2']
    exact Spec.isUtf8_append m2 (utf_message (N := ⟨XmlInt (versionOf major minor), IsXmlText, fun x => PlainText (dbl x), fun _ => True⟩) (fun x h => utf_plain (plain_of h))
      (fun s h => (text_utf8 h).2.1) ⟨xmlText_ascii (by decide +kernel), xmlText_ascii (by decide +kernel)⟩ _ hl)
  refine ⟨ws.flatten, dumpsXml_of hmaj hmin (by simp) rfl h1 hu, fun hlen u hub => ?_⟩
  rw [loads_text ⟨m ++ xmessage dbl (.response (.string [13])), by rw [h2', m1, List.append_assoc]⟩ hlen hr hub]
  exact answer_value (v := .string [10]) rfl rfl rfl rfl

/-- **C124 is violated** by time stamps and week days: date-times that differ in these alone have one text. -/
theorem C124_stamp_violated (major minor : Int) (d : DateTime) (stamp stamp' wday wday' : Int) :
    dumpsXml L dbl major minor none (.seq [.dateTime { d with unixTime := stamp, weekDay := wday }]) =
      dumpsXml L dbl major minor none (.seq [.dateTime { d with unixTime := stamp', weekDay := wday' }]) := rfl

/-- **C124 is violated** by the least 64-bit integer, whose negation is undefined. -/
theorem C124_least_violated (major minor : Int) (hmaj : 0 ≤ major ∧ major ≤ 3) (hmin : 0 ≤ minor) :
    dumpsXml L dbl major minor none (.seq [.int (-2 ^ 63)]) = .error .crash := by
  have hr : (XmlMarshaller.run dbl (versionOf major minor) [.packMethodResponse, .packInt (-2 ^ 63)]).2 = some .ub := by
    unfold XmlMarshaller.run
    rw [versionOf_text hmaj]
    rfl
  unfold dumpsXml
  rw [if_neg (by simp), if_neg (by omega), if_neg (by rw [versionOf_text hmaj]; decide)]
  have hs : script L none (.seq [.int (-2 ^ 63)]) = (([.packMethodResponse, .packInt (-2 ^ 63)], none), false) := rfl
  simp only [hs, hr, outcome, exnOf]

/-- **C124 is violated** by a correct document with its version late in the first 80 bytes: an exception that `loads` does not handle ends the interpreter. -/
theorem C124_mark_violated (useBinary : Option Bool) (hu : useBinary ≠ some true) : loads o env P useBinary lateMark = .error .terminate := by
  have hs : sniff lateMark XmlUnMarshaller.init = (XmlUnMarshaller.init, some Err.other) := by decide +kernel
  have hr : readXml env P (builder o) init lateMark = (init, some .terminate) := by
    unfold readXml
    rw [hs]
  unfold loads
  rw [readBy_detect (by decide +kernel) (by decide +kernel), if_neg (by
    rintro (h | ⟨-, h⟩)
    · exact hu h
    · exact absurd h (by decide +kernel)), hr]

/-- A response that was cut off in the middle. -/
def cutText : Bytes := asc "<methodResponse><params><param><value><i4>1</i4>"

/-- What a parser reports of it. -/
def cutEvents : List Sax := [.start (asc "methodResponse"), .start (asc "params"), .start (asc "param"), .start (asc "value"), .start (asc "i4"), .text (asc "1"), .stop (asc "i4")]

/-- **C124 is violated** by a text that was cut off: `loads` returns what came until then, for `finish()` is not called. -/
theorem C124_cut_violated (hcut : P [] cutText = (cutEvents, false)) (useBinary : Option Bool) (hu : useBinary ≠ some true) :
    loads o env P useBinary cutText = .ok (.int 1, none) := by
  have hs : sniff cutText XmlUnMarshaller.init = ({ XmlUnMarshaller.init with check := false }, none) := by decide +kernel
  have hr : (readXml env P (builder o) init cutText).2 = none ∧ answer (readXml env P (builder o) init cutText).1 = .ok (.int 1, none) := by
    unfold readXml
    rw [hs]
    simp only [XmlUnMarshaller.unMarshall, hs, hcut]
    have g1 : getValueType (asc "methodResponse") = .response := by decide +kernel
    have g2 : getValueType (asc "params") = .none := by decide +kernel
    have g3 : getValueType (asc "param") = .none := by decide +kernel
    have g4 : getValueType (asc "value") = .string := by decide +kernel
    have g5 : getValueType (asc "i4") = .int := by decide +kernel
    have g6 : strtol (asc "1") = (1, true, false) := by decide +kernel
    simp [cutEvents, saxAll, sax, onStart, setValueType, g1, g2, g3, g4, g5, g6, wanted, beginResponse, call, builder, build, caught, onStop, setValueData, setInt, callNone, closeEntity, place,
      init, XmlUnMarshaller.init, answer, seen, collapse]
  unfold loads
  rw [readBy_detect (by decide +kernel) (by decide +kernel), if_neg (by
    rintro (h | ⟨-, h⟩)
    · exact hu h
    · exact absurd h (by decide +kernel))]
  obtain ⟨h1, h2⟩ := hr
  generalize readXml env P (builder o) init cutText = q at h1 h2
  obtain ⟨pb, e⟩ := q
  simp only at h1 h2
  subst h1
  exact h2

/-- **C124 is violated** by one byte in C++: when the parser has nothing to say of it, `UnMarshaller_t::create` reads the byte after it. -/
theorem C124_one_byte_violated {β : Type} (B : Builder β) (b : β) (c : UInt8) (hq : P [] [c] = ([], false)) : (detect env P B b [c] 1).2 = some .crash := by
  have hs : sniff [c] XmlUnMarshaller.init = ({ XmlUnMarshaller.init with check := false }, none) := by
    unfold sniff
    rw [if_pos ⟨by simp, rfl⟩]
    have : findSub (asc "protocolVersion=\"") ([c].take 80) = none := by
      have h0 : (asc "protocolVersion=\"").isPrefixOf [c] = false := by
        apply Bool.eq_false_iff.2
        intro h
        have := (List.isPrefixOf_iff_prefix.1 h).length_le
        exact absurd this (by simp [asc])
      show findSub _ [c] = none
      unfold findSub
      rw [h0]
      rfl
    simp only [this]
  have hr : readXml env P B b [c] = (b, none) := by
    unfold readXml
    rw [hs]
    simp only [XmlUnMarshaller.unMarshall, hs, hq]
    rfl
  unfold detect
  rw [if_pos (by decide), show ([c] : Bytes).take 1 = [c] from rfl, hr]
  rfl

end Python
end Frpc
