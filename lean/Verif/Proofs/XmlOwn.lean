import Verif.Proofs.XmlChunks
/-! # The marshaller's documents and the unmarshaller's look for the version -/
namespace Frpc
namespace XmlMarshaller
open Spec.Xml Spec.XmlRpc

/-- Without quotation marks. -/
def NoQ (s : Bytes) : Prop := (34 : UInt8) ∉ s

theorem NoQ.append {a b : Bytes} (h1 : NoQ a) (h2 : NoQ b) : NoQ (a ++ b) := by
  unfold NoQ at *; simp [h1, h2]

theorem noq_plain {t : Bytes} (h : ∀ c ∈ t, isPlain c = true) : NoQ t := by
  intro hc
  exact absurd (h _ hc) (by decide)

theorem noq_quoted (s : Bytes) : NoQ (quoted s) := by
  intro h
  rw [← quote_flatten] at h
  exact ((C28_quote s).1 34 h).2.2 rfl

theorem noq_intTag (n : Int) : NoQ (intTag n) := by
  unfold intTag
  split <;> (unfold NoQ; decide +kernel)

theorem noq_typed {tag t : Bytes} (h1 : NoQ tag) (h2 : NoQ t) : NoQ (typed tag t) := by
  unfold typed
  have a : NoQ (asc "<value><") := by unfold NoQ; decide +kernel
  have b : NoQ (asc "></value>\n") := by unfold NoQ; decide +kernel
  have c : NoQ [62] := by unfold NoQ; decide
  have d : NoQ [60, 47] := by unfold NoQ; decide
  exact (((((a.append h1).append c).append h2).append d).append h1).append b

theorem noq_base64 (cs : List Bytes) : NoQ (Base64.writeEncodeBase64 true cs) := by
  intro h
  rcases (base64_text cs).1 _ h with h | h | h
  · exact absurd h (by decide)
  · exact absurd h (by decide)
  · exact absurd h (by decide)

variable {dbl : BitVec 64 → Bytes} {N : Need}

mutual
theorem noq_value (hd : ∀ x, N.dbl x → NoQ (dbl x)) : ∀ v : Value, Leaves N v → NoQ (xtext dbl v)
  | .int n, h => by simp only [xtext]; exact noq_typed (noq_intTag n) (noq_plain (plain_decInt n))
  | .bool b, h => by simp only [xtext]; exact noq_typed (by unfold NoQ; decide +kernel) (by cases b <;> (unfold NoQ; decide))
  | .double x, h => by simp only [xtext]; exact noq_typed (by unfold NoQ; decide +kernel) (hd x (by simpa only [Leaves] using h))
  | .string s, h => by simp only [xtext]; exact noq_typed (by unfold NoQ; decide +kernel) (noq_quoted s)
  | .stringView s, h => by simp only [xtext]; exact noq_typed (by unfold NoQ; decide +kernel) (noq_quoted s)
  | .dateTime d, h => by simp only [xtext]; exact noq_typed (by unfold NoQ; decide +kernel) (noq_plain (plain_date d))
  | .binary s, h => by simp only [xtext]; exact noq_typed (by unfold NoQ; decide +kernel) (noq_base64 _)
  | .binaryRef s, h => by simp only [xtext]; exact noq_typed (by unfold NoQ; decide +kernel) (noq_base64 _)
  | .null, h => by simp only [xtext]; unfold NoQ; decide +kernel
  | .secret v, h => by simp only [xtext]; exact noq_value hd v (by simpa only [Leaves] using h)
  | .array vs, h => by
    simp only [xtext]
    exact (NoQ.append (by unfold NoQ; decide +kernel) (noq_items hd vs (by simpa only [Leaves] using h))).append (by unfold NoQ; decide +kernel)
  | .struct ms, h => by
    simp only [xtext]
    exact (NoQ.append (by unfold NoQ; decide +kernel) (noq_members hd ms (by simpa only [Leaves] using h))).append (by unfold NoQ; decide +kernel)
theorem noq_items (hd : ∀ x, N.dbl x → NoQ (dbl x)) : ∀ vs : List Value, LeavesItems N vs → NoQ (xitems dbl vs)
  | [], h => by simp [xitems, NoQ]
  | v :: vs, h => by simp only [xitems]; exact (noq_value hd v h.1).append (noq_items hd vs h.2)
theorem noq_members (hd : ∀ x, N.dbl x → NoQ (dbl x)) : ∀ ms : List (Bytes × Value), LeavesMembers N ms → NoQ (xmembers dbl ms)
  | [], h => by simp [xmembers, NoQ]
  | (k, v) :: ms, h => by
    simp only [xmembers]
    exact (((((NoQ.append (by unfold NoQ; decide +kernel) (noq_quoted k)).append (by unfold NoQ; decide +kernel)).append (noq_value hd v h.2.2.1)).append
      (by unfold NoQ; decide +kernel)).append (noq_members hd ms h.2.2.2))
end

theorem noq_params (hd : ∀ x, N.dbl x → NoQ (dbl x)) : ∀ vs : List Value, LeavesItems N vs → NoQ (xparams dbl vs)
  | [], _ => by simp [xparams, NoQ]
  | v :: vs, h => by
    simp only [xparams]
    exact ((NoQ.append (by unfold NoQ; decide +kernel) (noq_value hd v h.1)).append (by unfold NoQ; decide +kernel)).append (noq_params hd vs h.2)

theorem noq_wrap {n s : Bytes} (h1 : NoQ n) (h2 : NoQ s) : NoQ (wrap n s) := by
  unfold wrap NoQ at *
  simp [h1, h2]

theorem noq_message (hd : ∀ x, N.dbl x → NoQ (dbl x)) (msg : Message) (h : msg.Leaves N) : NoQ (xmessage dbl msg) := by
  have nl : NoQ [10] := by unfold NoQ; decide
  have q : ∀ s : Bytes, s.all isAlnum = true → NoQ s := by
    intro s hs hc
    exact absurd (List.all_eq_true.1 hs 34 hc) (by decide)
  cases msg with
  | call name args =>
    simp only [xmessage]
    exact (noq_wrap (q _ (by decide +kernel)) (nl.append ((noq_wrap (q _ (by decide +kernel)) (noq_quoted _)).append
      (nl.append ((noq_wrap (q _ (by decide +kernel)) (nl.append (noq_params hd args h.2.2))).append nl))))).append nl
  | response v =>
    simp only [xmessage]
    exact (noq_wrap (q _ (by decide +kernel)) (nl.append ((noq_wrap (q _ (by decide +kernel)) (nl.append (noq_params hd [v] ⟨h, trivial⟩))).append nl))).append nl
  | fault code m =>
    simp only [xmessage, xtext, xmembers]
    have hm : NoQ (asc "<value>\n<struct>\n" ++ (asc "<member>\n<name>" ++ quoted (asc "faultCode") ++ asc "</name>\n" ++ typed (intTag code) (decInt code) ++ asc "</member>\n" ++
        (asc "<member>\n<name>" ++ quoted (asc "faultString") ++ asc "</name>\n" ++ typed (asc "string") (quoted m) ++ asc "</member>\n" ++ [])) ++ asc "</struct>\n</value>\n") := by
      have a : NoQ (asc "<member>\n<name>") := by unfold NoQ; decide +kernel
      have b : NoQ (asc "</name>\n") := by unfold NoQ; decide +kernel
      have c : NoQ (asc "</member>\n") := by unfold NoQ; decide +kernel
      refine (NoQ.append (by unfold NoQ; decide +kernel) (NoQ.append ?_ (NoQ.append ?_ (by unfold NoQ; simp)))).append (by unfold NoQ; decide +kernel)
      · exact (((a.append (noq_quoted _)).append b).append (noq_typed (noq_intTag _) (noq_plain (plain_decInt _)))).append c
      · exact (((a.append (noq_quoted _)).append b).append (noq_typed (q _ (by decide +kernel)) (noq_quoted _))).append c
    exact (noq_wrap (q _ (by decide +kernel)) (nl.append ((noq_wrap (q _ (by decide +kernel)) (nl.append hm)).append nl))).append nl

/-- The version that the unmarshaller takes from a document of the marshaller whose first piece has `n` bytes: 2.0 only if it is announced in
the first piece; otherwise the default 2.1. -/
def seenVersion (ver : Version) (n : Nat) : Version := if ver.major = 2 ∧ ver.minor = 0 ∧ 46 ≤ n then ⟨2, 0⟩ else ⟨2, 1⟩

open XmlUnMarshaller

theorem sniff_short20 : ∀ n, n < 46 → n ≠ 0 → sniff ((asc "<?xml version=\"1.0\"?>\n<!--protocolVersion=\"2.0\"-->\n").take n) init = ({ init with check := false }, none) := by
  decide +kernel

theorem sniff_short21 : ∀ n, n < 46 → n ≠ 0 → sniff ((asc "<?xml version=\"1.0\"?>\n<!--protocolVersion=\"2.1\"-->\n").take n) init = ({ init with check := false }, none) := by
  decide +kernel

theorem findSub_own20 (t : Bytes) : findSub (asc "protocolVersion=\"") (asc "<?xml version=\"1.0\"?>\n<!--protocolVersion=\"2.0" ++ t) = some 26 := by rfl
theorem findSub_own21 (t : Bytes) : findSub (asc "protocolVersion=\"") (asc "<?xml version=\"1.0\"?>\n<!--protocolVersion=\"2.1" ++ t) = some 26 := by rfl

theorem sniff_long20 (t : Bytes) : sniff (asc "<?xml version=\"1.0\"?>\n<!--protocolVersion=\"2.0" ++ t) init = ({ init with ver := ⟨2, 0⟩, check := false }, none) := by
  unfold sniff
  rw [if_pos ⟨by simp [asc], rfl⟩]
  have e : (asc "<?xml version=\"1.0\"?>\n<!--protocolVersion=\"2.0" ++ t).take 80 = asc "<?xml version=\"1.0\"?>\n<!--protocolVersion=\"2.0" ++ t.take 34 := rfl
  simp only [e, findSub_own20]
  rw [if_pos (by simp [asc])]
  rfl

theorem sniff_long21 (t : Bytes) : sniff (asc "<?xml version=\"1.0\"?>\n<!--protocolVersion=\"2.1" ++ t) init = ({ init with ver := ⟨2, 1⟩, check := false }, none) := by
  unfold sniff
  rw [if_pos ⟨by simp [asc], rfl⟩]
  have e : (asc "<?xml version=\"1.0\"?>\n<!--protocolVersion=\"2.1" ++ t).take 80 = asc "<?xml version=\"1.0\"?>\n<!--protocolVersion=\"2.1" ++ t.take 34 := rfl
  simp only [e, findSub_own21]
  rw [if_pos (by simp [asc])]
  rfl

theorem take_of_append {a b c d : Bytes} (h : a ++ b = c ++ d) (hl : a.length ≤ c.length) : a = c.take a.length := by
  have := congrArg (List.take a.length) h
  rw [List.take_left, List.take_append_of_le_length hl] at this
  exact this

theorem split_of_append {a b c d : Bytes} {k : Nat} (h : a ++ b = c ++ d) (hk : k ≤ a.length) (hl : k ≤ c.length) : a = c.take k ++ a.drop k := by
  have := congrArg (List.take k) h
  rw [List.take_append_of_le_length hk, List.take_append_of_le_length hl] at this
  rw [← this, List.take_append_drop]

theorem sniff_own1 {body d r : Bytes} (hb : NoQ body) (h : d ++ r = asc "<?xml version=\"1.0\"?>\n" ++ body) (hd : d ≠ []) : sniff d init = ({ init with check := false }, none) := by
  unfold sniff
  rw [if_pos ⟨hd, rfl⟩]
  have hf : findSub (asc "protocolVersion=\"") (d.take 80) = none := by
    cases hf : findSub (asc "protocolVersion=\"") (d.take 80) with
    | none => rfl
    | some i =>
      exfalso
      obtain ⟨a, t, h1, h2⟩ := findSub_some hf
      have h3 : a ++ (asc "protocolVersion=" ++ (34 :: (t ++ (d.drop 80 ++ r)))) = asc "<?xml version=\"1.0\"?>\n" ++ body := by
        have h5 : d = a ++ (asc "protocolVersion=\"" ++ t) ++ d.drop 80 := by rw [← h1, List.take_append_drop]
        rw [← h]
        conv => rhs; rw [h5]
        simp [asc]
      have hq : (34 : UInt8) ∈ (asc "<?xml version=\"1.0\"?>\n" ++ body).drop (i + 16) := by
        rw [← h3, ← List.append_assoc, List.drop_append]
        apply List.mem_append_right
        have : (a ++ asc "protocolVersion=").length = i + 16 := by simp [h2, asc]
        rw [this, Nat.sub_self]
        simp
      by_cases hi : i + 16 < 22
      · have h4 := congrArg (fun s => (s.drop i).take 16) h3
        rw [← h2, List.drop_left, show (asc "protocolVersion=" ++ (34 :: (t ++ (d.drop 80 ++ r)))).take 16 = asc "protocolVersion=" from rfl, h2,
          List.drop_append_of_le_length (by simp [asc]; omega), List.take_append_of_le_length (by simp [asc]; omega)] at h4
        have : ∀ i, i < 6 → asc "protocolVersion=" ≠ ((asc "<?xml version=\"1.0\"?>\n").drop i).take 16 := by decide +kernel
        exact this i (by omega) h4
      · rw [List.drop_append, List.drop_eq_nil_of_le (by simp [asc]; omega), List.nil_append] at hq
        exact hb (List.mem_of_mem_drop hq)
  simp only [hf]

/-- What the unmarshaller takes from the first piece of a document of the marshaller. -/
theorem sniff_own {ver : Version} {body d r : Bytes} (hb : NoQ body) (h : d ++ r = packMagic ver ++ body) (hd : d ≠ []) :
    sniff d init = ({ init with ver := seenVersion ver d.length, check := false }, none) := by
  have h0 : d.length ≠ 0 := by intro h0; exact hd (List.eq_nil_of_length_eq_zero h0)
  unfold packMagic at h
  unfold seenVersion
  split at h
  · rename_i h1
    rw [if_neg (by rintro ⟨h2, -, -⟩; rw [h2] at h1; exact absurd h1 (by decide))]
    exact sniff_own1 hb h hd
  · split at h
    · rename_i h1
      by_cases hl : 46 ≤ d.length
      · rw [if_pos ⟨h1.1, h1.2, hl⟩, split_of_append (k := 46) h hl (by decide +kernel)]
        exact sniff_long20 _
      · rw [if_neg (by rintro ⟨-, -, h2⟩; exact hl h2), take_of_append h (by rw [show (asc "<?xml version=\"1.0\"?>\n<!--protocolVersion=\"2.0\"-->\n").length = 51 by decide +kernel]; omega)]
        exact sniff_short20 _ (by omega) h0
    · rename_i h1
      rw [if_neg (by rintro ⟨h2, h3, -⟩; exact h1 ⟨h2, h3⟩)]
      by_cases hl : 46 ≤ d.length
      · rw [split_of_append (k := 46) h hl (by decide +kernel)]
        exact sniff_long21 _
      · rw [take_of_append h (by rw [show (asc "<?xml version=\"1.0\"?>\n<!--protocolVersion=\"2.1\"-->\n").length = 51 by decide +kernel]; omega)]
        exact sniff_short21 _ (by omega) h0

end XmlMarshaller
end Frpc
