import Verif.Props.Array
import Verif.Props.Add
import Verif.Props.Miss
import Verif.Props.Iterate
/-!
# Props.Scheme — C46, C49, C50: building objects, `Scheme.Check…` and `Scheme.Mutate…`
-/

namespace Jin
open Spec

/-! ### Objects without whitespace -/

/-- A member with no whitespace around it. -/
def bareM (k : Text) (v : Json) : Member Json := ⟨[], k, [], [], v, []⟩

/-- The members of two lists. -/
def bareMs (ks : List Text) (vs : List Json) : List (Member Json) := List.zipWith bareM ks vs

/-- The document that is one object without whitespace between tokens. -/
def bareObj (ks : List Text) (vs : List Json) : Doc := ⟨[], .obj [] (bareMs ks vs), []⟩

theorem renderMembers_cons' (k : Text) (v : Json) (ms : List (Member Json)) : renderMembers (bareM k v :: ms) =
    memberText k v.render ++ (if ms.isEmpty then [] else 44 :: renderMembers ms) := by
  simp [bareM, renderMembers, memberText]

theorem eachComma_members : ∀ {ks : List Text} {vs : List Json}, ks.length = vs.length → ks ≠ [] →
    eachComma ((ks.zip (vs.map Json.render)).map fun m => memberText m.1 m.2) = renderMembers (bareMs ks vs) ++ [44]
  | [], _, _, h => (h rfl).elim
  | k :: ks, [], h, _ => by simp at h
  | [k], [v], _, _ => by simp [eachComma, bareMs, renderMembers_cons']
  | [_], _ :: _ :: _, h, _ => by simp at h
  | k :: k' :: ks, [v], h, _ => by simp at h
  | k :: k' :: ks, v :: v' :: vs, h, _ => by
    have := eachComma_members (ks := k' :: ks) (vs := v' :: vs) (by simpa using h) (by simp)
    rw [bareMs, List.zipWith_cons_cons, renderMembers_cons', ← bareMs, if_neg (by simp [bareMs])]
    rw [List.map_cons, List.zip_cons_cons, List.map_cons, eachComma, List.map_cons, List.flatten_cons, ← eachComma, this]
    simp

theorem makeObj_render {ks : List Text} {vs : List Json} (h : ks.length = vs.length) (hk : ks ≠ []) :
    makeObj (ks.zip (vs.map Json.render)) = (bareObj ks vs).render := by
  rw [makeObj, eachComma_members h hk, closeWith, ← List.cons_append, List.dropLast_concat, bareObj, Doc.render, render_obj,
    if_neg (by cases ks <;> cases vs <;> simp_all [bareMs])]
  simp

theorem mem_zipWith {α β γ : Type} {f : α → β → γ} {x : γ} : ∀ {as : List α} {bs : List β}, x ∈ List.zipWith f as bs →
    ∃ a ∈ as, ∃ b ∈ bs, x = f a b
  | [], _, h => by simp at h
  | _ :: _, [], h => by simp at h
  | a :: as, b :: bs, h => by
    rw [List.zipWith_cons_cons, List.mem_cons] at h
    rcases h with rfl | h
    · exact ⟨a, List.mem_cons_self, b, List.mem_cons_self, rfl⟩
    · obtain ⟨a, ha, b, hb, e⟩ := mem_zipWith h
      exact ⟨a, List.mem_cons_of_mem _ ha, b, List.mem_cons_of_mem _ hb, e⟩

theorem bareObj_wf {ks : List Text} {vs : List Json} (hk : ∀ k ∈ ks, strOk k) (hv : ∀ v ∈ vs, v.wf) : (bareObj ks vs).wf := by
  rw [doc_wf]
  refine ⟨rfl, ?_, rfl⟩
  simp only [bareObj, Json.wf, Bool.and_eq_true]
  refine ⟨rfl, wfMembers_iff.2 ?_⟩
  intro m hm
  obtain ⟨k, h1, v, h2, rfl⟩ := mem_zipWith hm
  exact ⟨rfl, hk k h1, rfl, rfl, hv v h2, rfl⟩

theorem bareMs_keys {ks : List Text} {vs : List Json} (h : ks.length = vs.length) : (bareMs ks vs).map Member.key = ks := by
  induction ks generalizing vs with
  | nil => simp [bareMs]
  | cons k ks ih =>
    cases vs with
    | nil => simp at h
    | cons v vs =>
      have := ih (vs := vs) (by simpa using h)
      rw [bareMs] at this ⊢
      simp [bareM, this]

theorem memberIdx_at {ms : List (Member Json)} {n : Nat} {m : Member Json} (hn : (ms.map Member.key).Nodup) (h : ms[n]? = some m) :
    memberIdx ms m.key = some n := by
  induction ms generalizing n with
  | nil => simp at h
  | cons x xs ih =>
    rw [List.map_cons, List.nodup_cons] at hn
    unfold memberIdx
    rw [List.findIdx?_cons]
    cases n with
    | zero =>
      simp only [List.getElem?_cons_zero, Option.some.injEq] at h
      subst h
      simp
    | succ n =>
      simp only [List.getElem?_cons_succ] at h
      have hne : x.key ≠ m.key := by
        intro e
        exact hn.1 (e ▸ List.mem_map_of_mem (List.mem_of_getElem? h))
      rw [if_neg (by simpa using hne), ← memberIdx, ih hn.2 h]
      rfl

theorem bareObj_get {ks : List Text} {vs : List Json} (hl : ks.length = vs.length) (hn : ks.Nodup) {n : Nat} {k : Text} {v : Json}
    (hk : ks[n]? = some k) (hv : vs[n]? = some v) : (bareObj ks vs).get? [k] = some v := by
  have hm : (bareMs ks vs)[n]? = some (bareM k v) := by
    rw [bareMs, List.getElem?_zipWith, hk, hv]
  have := memberIdx_at (by rw [bareMs_keys hl]; exact hn) hm
  simp only [bareM] at this hm
  simp [bareObj, Doc.get?, Json.get?, Json.child?, this, hm]

/-! ### C46 -/

/-- The text `s` stands for the content `c`: a plain string for itself, the text of a
string, array or object for what `Get` returns of it. -/
def Means (s c : Text) : Prop := (PlainText s ∧ c = s) ∨ ∃ v : Json, v.wf ∧ (∀ t, v ≠ .lit t) ∧ s = v.render ∧ c = v.content

/-- Text that starts and ends like a string, array or object is written as it is. -/
theorem formatType_marked {isFloat : Bytes → Bool} (hf : ∀ v, isFloat v = true → (Json.lit v).wf) {c e : UInt8} {t : Bytes}
    (h : (c = 34 ∧ e = 34) ∨ (c = 91 ∧ e = 93) ∨ (c = 123 ∧ e = 125)) :
    formatType isFloat (c :: (t ++ [e])) = c :: (t ++ [e]) := by
  have nt : tokByte c = false := by rcases h with ⟨rfl, -⟩ | ⟨rfl, -⟩ | ⟨rfl, -⟩ <;> decide
  have hb : isBool (c :: (t ++ [e])) = false := by
    simp only [isBool, Bool.or_eq_false_iff, beq_eq_false_iff_ne, ne_eq]
    rcases h with ⟨rfl, -⟩ | ⟨rfl, -⟩ | ⟨rfl, -⟩ <;> simp [bTrue, bFalse]
  have hi : isInt (c :: (t ++ [e])) = false := by
    unfold isInt
    cases hp : parseIntBits 32 (c :: (t ++ [e])) with
    | none => rfl
    | some n => have := (parseIntBits_tok hp).2; simp [nt] at this
  have hfl : isFloat (c :: (t ++ [e])) = false := by
    cases hp : isFloat (c :: (t ++ [e])) with
    | false => rfl
    | true => have := (lit_wf.1 (hf _ hp)).2; simp [nt] at this
  have hl : (c :: (t ++ [e])).getLast? = some e := by rw [← List.cons_append, List.getLast?_concat]
  simp only [formatType, hb, hi, hfl, hl, Bool.false_eq_true, if_false]
  rcases h with ⟨rfl, rfl⟩ | ⟨rfl, rfl⟩ | ⟨rfl, rfl⟩ <;> simp

theorem formatType_means {isFloat : Bytes → Bool} (hf : ∀ v, isFloat v = true → (Json.lit v).wf) {s c : Text} (h : Means s c) :
    ∃ x : Json, x.wf ∧ formatType isFloat s = x.render ∧ x.content = c := by
  rcases h with ⟨h, rfl⟩ | ⟨v, h1, h2, rfl, rfl⟩
  · obtain ⟨x, g1, -, g3, g4⟩ := formatType_value hf h
    exact ⟨x, g1, g3, g4⟩
  · refine ⟨v, h1, ?_, rfl⟩
    cases v with
    | lit t => exact absurd rfl (h2 t)
    | str raw => rw [render_str]; exact formatType_marked hf (.inl ⟨rfl, rfl⟩)
    | arr g es => rw [render_container rfl]; exact formatType_marked hf (.inr (.inl ⟨rfl, rfl⟩))
    | obj g ms => rw [render_container rfl]; exact formatType_marked hf (.inr (.inr ⟨rfl, rfl⟩))

/-- The values that `formatType` makes of such texts. -/
theorem formatType_values {isFloat : Bytes → Bool} (hf : ∀ v, isFloat v = true → (Json.lit v).wf) {ss : List (Text × Text)}
    (hs : ∀ s ∈ ss, Means s.1 s.2) :
    ∃ vs : List Json, (∀ v ∈ vs, v.wf) ∧ (ss.map Prod.fst).map (formatType isFloat) = vs.map Json.render ∧
      vs.map Json.content = ss.map Prod.snd := by
  induction ss with
  | nil => exact ⟨[], by simp, rfl, rfl⟩
  | cons s ss ih =>
    obtain ⟨vs, h1, h2, h3⟩ := ih fun s h => hs s (List.mem_cons_of_mem _ h)
    obtain ⟨x, g1, g3, g4⟩ := formatType_means hf (hs s List.mem_cons_self)
    refine ⟨x :: vs, ?_, by simp [← h2, g3], by simp [h3, g4]⟩
    intro v hv
    rcases List.mem_cons.1 hv with rfl | hv
    · exact g1
    · exact h1 v hv

/-- Full statement of C46. -/
def C46_statement : Prop := ∀ (isFloat : Bytes → Bool) (ks ss : List Text), (∀ v, isFloat v = true → (Json.lit v).wf) →
  (ks.length = ss.length → ks ≠ [] → ks.Nodup → (∀ k ∈ ks, strOk k) →
    ∃ (d : Doc) (g : Text) (ms : List (Member Json)), MakeJsonString isFloat (some ks) ss = d.render ∧ d.wf ∧
      d.root = .obj g ms ∧ ms.map Member.key = ks ∧
      ∀ (n : Nat) (k s : Text), ks[n]? = some k → ss[n]? = some s →
        Get (MakeJsonString isFloat (some ks) ss) [k] = .ok (if s.head? = some 34 ∧ s.getLast? = some 34 then s.tail.dropLast else s)) ∧
  (ks.length ≠ ss.length → MakeJsonString isFloat (some ks) ss = [])

/-- **C46 (partial)** `MakeJsonString` of equally many keys and texts: an object with these
members in this order, and `Get` of each key returns what its text stands for (the second
components).  Missing: texts that stand for nothing, such as one with a lone quote
(`C46_fails`). -/
theorem C46_makeJsonString_partial (isFloat : Bytes → Bool) (hf : ∀ v, isFloat v = true → (Json.lit v).wf) (ks : List Text)
    (ss : List (Text × Text)) (hl : ks.length = ss.length) (hne : ks ≠ []) (hk : ∀ k ∈ ks, strOk k) (hs : ∀ s ∈ ss, Means s.1 s.2) :
    ∃ (d : Doc) (g : Text) (ms : List (Member Json)), MakeJsonString isFloat (some ks) (ss.map Prod.fst) = d.render ∧ d.wf ∧
      d.root = .obj g ms ∧ ms.map Member.key = ks ∧ ms.map (fun m => m.v.content) = ss.map Prod.snd ∧
      (ks.Nodup → ∀ (n : Nat) (k : Text) (s : Text × Text), ks[n]? = some k → ss[n]? = some s →
        Get (MakeJsonString isFloat (some ks) (ss.map Prod.fst)) [k] = .ok s.2) := by
  obtain ⟨vs, h1, h2, h3⟩ := formatType_values hf hs
  have hl' : ks.length = vs.length := by
    have := congrArg List.length h3
    simp only [List.length_map] at this
    omega
  have e : MakeJsonString isFloat (some ks) (ss.map Prod.fst) = (bareObj ks vs).render := by
    rw [MakeJsonString, if_neg (by simp [hl]), ← makeObj_render hl' hne, ← h2]
  refine ⟨bareObj ks vs, [], bareMs ks vs, e, bareObj_wf hk h1, rfl, bareMs_keys hl', ?_, ?_⟩
  · rw [← h3]
    clear e hl hne hk hs h1 h2 h3
    induction ks generalizing vs with
    | nil => cases vs <;> simp_all [bareMs]
    | cons k ks ih =>
      cases vs with
      | nil => simp at hl'
      | cons v vs =>
        have := ih vs (by simpa using hl')
        rw [bareMs] at this ⊢
        simp [bareM, this]
  · intro hn n k s hk' hs'
    have hs' : (vs.map Json.content)[n]? = some s.2 := by rw [h3, List.getElem?_map, hs']; rfl
    rw [List.getElem?_map] at hs'
    obtain ⟨v, hv, hv'⟩ := Option.map_eq_some_iff.1 hs'
    rw [e, ← hv']
    exact get_ok (bareObj_wf hk h1) (by simp) (bareObj_get hl' hn hk' hv)

/-- **C46** `MakeJson` prints its values and does the same. -/
theorem C46_makeJson (isFloat : Bytes → Bool) (ks : Option (List Text)) (vs : List GoVal) :
    MakeJson isFloat ks vs = MakeJsonString isFloat ks (vs.map sprintV) := by
  simp [MakeJson, MakeJsonString, Function.comp_def]

/-- **C46** `MakeJsonWithMap` does the same for the entries of the map in whatever order the
runtime goes through them. -/
theorem C46_makeJsonWithMap (isFloat : Bytes → Bool) (es : List (Text × Text)) :
    MakeJsonWithMap isFloat (some es) = MakeJsonString isFloat (some (es.map Prod.fst)) (es.map Prod.snd) := by
  rw [MakeJsonWithMap, MakeJsonString, if_neg (by simp)]
  show makeObj _ = makeObj _
  congr 1
  induction es with
  | nil => rfl
  | cons e es ih => simp [ih]

/-- **C46** Lists of different lengths give nil. -/
theorem C46_lengths (isFloat : Bytes → Bool) (ks : List Text) (ss : List Text) (vs : List GoVal) (h : ks.length ≠ ss.length)
    (h' : ks.length ≠ vs.length) :
    MakeJsonString isFloat (some ks) ss = [] ∧ MakeJson isFloat (some ks) vs = [] := by
  simp [MakeJsonString, MakeJson, h, h']

/-- **C46 is false** in general: quotes inside a value are not escaped, so `{"k":"a"b"}` comes
out, where `Get` finds a shorter string. -/
theorem C46_unescaped_fails :
    MakeJsonString (fun _ => false) (some [str "k"]) [str "a\"b"] = str "{\"k\":\"a\"b\"}" ∧
    Get (MakeJsonString (fun _ => false) (some [str "k"]) [str "a\"b"]) [str "k"] = .ok (str "a") := by decide +kernel

theorem C46_fails : ¬ C46_statement := by
  intro h
  obtain ⟨_, _, _, -, -, -, -, h⟩ := (h (fun _ => false) [str "k"] [str "a\"b"] (by simp)).1 rfl (by simp) (by simp) (by decide +kernel)
  have := h 0 _ _ rfl rfl
  rw [C46_unescaped_fails.2] at this
  revert this
  decide +kernel

namespace Sample
/-- Values and what they stand for. -/
def values : List (Text × Text) := [(str "x y", str "x y"), (str "-5", str "-5"), (str "\"q\"", str "q"), (str "[1, 2]", str "[1, 2]")]
def names : List Text := [str "a", str "b\\\"", str "c", str "d"]
end Sample

example : (∀ k ∈ Sample.names, strOk k) ∧ (∀ s ∈ Sample.values, Means s.1 s.2) ∧ Sample.names.Nodup ∧
    MakeJsonString (fun _ => false) (some Sample.names) (Sample.values.map Prod.fst) =
      str "{\"a\":\"x y\",\"b\\\"\":-5,\"c\":\"q\",\"d\":[1, 2]}" ∧
    Get (MakeJsonString (fun _ => false) (some Sample.names) (Sample.values.map Prod.fst)) [str "c"] = .ok (str "q") := by
  have hk : ∀ k ∈ Sample.names, strOk k := by decide +kernel
  have hs : ∀ s ∈ Sample.values, Means s.1 s.2 := by
    intro s hs
    simp only [Sample.values, List.mem_cons, List.not_mem_nil, or_false] at hs
    rcases hs with rfl | rfl | rfl | rfl
    · exact .inl ⟨by unfold PlainText; decide +kernel, rfl⟩
    · exact .inl ⟨by unfold PlainText; decide +kernel, rfl⟩
    · exact .inr ⟨.str (str "q"), by decide +kernel, by simp, by decide +kernel, rfl⟩
    · exact .inr ⟨.arr [] [⟨[], .lit (str "1"), []⟩, ⟨str " ", .lit (str "2"), []⟩], by decide +kernel, by simp, by decide +kernel, by decide +kernel⟩
  refine ⟨hk, hs, by decide +kernel, by decide +kernel, ?_⟩
  obtain ⟨_, _, _, -, -, -, -, -, h⟩ := C46_makeJsonString_partial (fun _ => false) (by simp) Sample.names Sample.values rfl
    (by simp [Sample.names]) hk hs
  exact h (by decide +kernel) 2 (str "c") _ rfl rfl

/-- What `fmt.Sprintf` gives for integers, booleans and plain strings is plain. -/
theorem C46_printed_plain (v : GoVal) : (∀ s, v = .string s → PlainText s) → (∀ t, v = .other t → PlainText t) →
    PlainText (sprintV v) := by
  intro h1 h2
  cases v with
  | string s => exact h1 s rfl
  | other t => exact h2 t rfl
  | nil => unfold PlainText; decide
  | bool b => cases b <;> (unfold PlainText; decide)
  | int n =>
    have hw := itoa_wf n
    rw [lit_wf] at hw
    have hne : ∀ c ∈ itoa n, c ≠ 34 ∧ c ≠ 92 ∧ c ≠ 91 ∧ c ≠ 123 := by
      intro c hc
      have := tokByte_ne (List.all_eq_true.1 hw.2 c hc)
      exact ⟨this.2.1, this.2.2.1, this.2.2.2.2.2.1, this.2.2.2.2.2.2.2.1⟩
    have hh : ∀ c, (itoa n).head? = some c → c ∈ itoa n := fun c h => List.mem_of_mem_head? h
    refine ⟨?_, ?_, ?_⟩
    · show strOk (itoa n) = true
      generalize itoa n = t at hne
      induction t with
      | nil => rfl
      | cons c t ih =>
        have := hne c List.mem_cons_self
        rw [strOk_cons this.2.1, ih fun c hc => hne c (List.mem_cons_of_mem _ hc)]
        simp [this.1]
    · rintro ⟨h, -⟩; exact (hne _ (hh _ h)).2.2.1 rfl
    · rintro ⟨h, -⟩; exact (hne _ (hh _ h)).2.2.2 rfl

/-! ### C49 -/

/-- The root is an object with these members. -/
def RootObj (d : Doc) (ms : List (Member Json)) : Prop := ∃ g, d.root = .obj g ms

namespace Sample

/-- `{"a":"x","b" : [1,{}]}` -/
def flatMs : List (Member Json) :=
  [mem (s "a") (.str (s "x")), ⟨[], s "b", s " ", s " ", .arr [] [el (.lit (s "1")), el (.obj [] [])], []⟩]
def flat : Doc := ⟨[], .obj [] flatMs, []⟩

/-- `{"a":{"b":"}",":5,":2}}` -/
def trapMs : List (Member Json) := [mem (s "a") (.obj [] [mem (s "b") (.str (s "}")), mem (s ":5,") (.lit (s "2"))])]
def trap : Doc := ⟨[], .obj [] trapMs, []⟩

end Sample

/-- Full statement of C49. -/
def C49_statement : Prop := ∀ (d : Doc) (ms : List (Member Json)) (s : Scheme), d.wf → RootObj d ms → (ms.map Member.key).Nodup →
  s.keys.Nodup → (∀ k ∈ s.keys, strOk k) →
  ∃ a b, s.Check d.render = .ok a ∧ s.CheckAbs d.render = .ok b ∧
    (a = true ↔ ∀ k ∈ s.keys, k ∈ ms.map Member.key) ∧ (b = true ↔ ∀ k, k ∈ s.keys ↔ k ∈ ms.map Member.key)

theorem get_present {d : Doc} {ms : List (Member Json)} (hd : d.wf) (hr : RootObj d ms) {k : Text} (hk : k ∈ ms.map Member.key) :
    ∃ w, d.get? [k] = some w ∧ Get d.render [k] = .ok w.content := by
  obtain ⟨g, hr⟩ := hr
  obtain ⟨m, hm, rfl⟩ := List.mem_map.1 hk
  obtain ⟨n, hn⟩ : ∃ n, memberIdx ms m.key = some n := by
    cases h : memberIdx ms m.key with
    | some n => exact ⟨n, rfl⟩
    | none =>
      unfold memberIdx at h
      rw [List.findIdx?_eq_none_iff] at h
      exact absurd (h m hm) (by simp)
  have hlt : n < ms.length := by
    unfold memberIdx at hn
    obtain ⟨h, -⟩ := List.findIdx?_eq_some_iff_getElem.1 hn
    exact h
  have hg : d.get? [m.key] = some ms[n].v := by
    simp [Doc.get?, Json.get?, hr, Json.child?, hn, hlt]
  exact ⟨_, hg, get_ok hd (by simp) hg⟩

/-- **C49** Every scheme key is present: `Check` says so. -/
theorem C49_check_true (d : Doc) (ms : List (Member Json)) (s : Scheme) (hd : d.wf) (hr : RootObj d ms)
    (h : ∀ k ∈ s.keys, k ∈ ms.map Member.key) : s.Check d.render = .ok true := by
  unfold Scheme.Check
  generalize s.keys = ks at h
  induction ks with
  | nil => rfl
  | cons k ks ih =>
    obtain ⟨w, -, hw⟩ := get_present hd hr (h k List.mem_cons_self)
    rw [schemeCheck, hw]
    exact ih fun k hk => h k (List.mem_cons_of_mem _ hk)

/-- **C49 (partial)** `Check` decides the presence of the scheme keys when `Doc.clear` holds at the
root for those that are absent.  Missing: other keys, where the search for a missing key may
find something in the last value of the root (`C49_check_fails`). -/
theorem C49_check_partial (d : Doc) (ms : List (Member Json)) (s : Scheme) (hd : d.wf) (hr : RootObj d ms)
    (hok : ∀ k ∈ s.keys, k ∉ ms.map Member.key → d.clear [] k) :
    s.Check d.render = .ok (decide (∀ k ∈ s.keys, k ∈ ms.map Member.key)) := by
  by_cases h : ∀ k ∈ s.keys, k ∈ ms.map Member.key
  · rw [C49_check_true d ms s hd hr h, decide_eq_true h]
  · rw [decide_eq_false h]
    unfold Scheme.Check
    generalize s.keys = ks at h hok
    induction ks with
    | nil => simp at h
    | cons k ks ih =>
      by_cases hk : k ∈ ms.map Member.key
      · obtain ⟨w, -, hw⟩ := get_present hd hr hk
        rw [schemeCheck, hw]
        refine ih (fun h' => h fun x hx => ?_) fun x hx => hok x (List.mem_cons_of_mem _ hx)
        rcases List.mem_cons.1 hx with rfl | hx
        · exact hk
        · exact h' x hx
      · obtain ⟨g, hr⟩ := hr
        have := C03_missing_key_partial d [] k [] g ms hd (by simp [Doc.get?, Json.get?, hr])
          (fun m hm e => hk (List.mem_map.2 ⟨m, hm, e⟩)) (hok k List.mem_cons_self hk)
        rw [schemeCheck]
        simp only [List.nil_append] at this
        rw [this]

theorem subset_of_length {α : Type} [DecidableEq α] {l₁ : List α} : ∀ {l₂ : List α}, l₁.Nodup → (∀ x ∈ l₁, x ∈ l₂) → l₂.length ≤ l₁.length →
    ∀ x ∈ l₂, x ∈ l₁ := by
  induction l₁ with
  | nil =>
    intro l₂ _ _ hl x hx
    have : l₂ = [] := List.eq_nil_iff_length_eq_zero.2 (by simpa using hl)
    rw [this] at hx; exact hx
  | cons a l ih =>
    intro l₂ hn hs hl x hx
    rw [List.nodup_cons] at hn
    have ha := hs a List.mem_cons_self
    by_cases hxa : x = a
    · rw [hxa]; exact List.mem_cons_self
    · refine List.mem_cons_of_mem _ (ih (l₂ := l₂.erase a) hn.2 ?_ ?_ x ?_)
      · intro y hy
        have : y ≠ a := by rintro rfl; exact hn.1 hy
        exact (List.mem_erase_of_ne this).2 (hs y (List.mem_cons_of_mem _ hy))
      · rw [List.length_erase_of_mem ha]
        simp only [List.length_cons] at hl; omega
      · exact (List.mem_erase_of_ne hxa).2 hx

/-- **C49 (partial)** `CheckAbs` decides whether the key sets are equal, for every text but
`{}` itself.  Missing: that text, which `CheckAbs` refuses for every scheme
(`C49_checkAbs_fails`). -/
theorem C49_checkAbs_partial (d : Doc) (ms : List (Member Json)) (s : Scheme) (hd : d.wf) (hr : RootObj d ms)
    (hn : (ms.map Member.key).Nodup) (hs : s.keys.Nodup) (hne : d.render ≠ str "{}") :
    ∃ b, s.CheckAbs d.render = .ok b ∧ (b = true ↔ ∀ k, k ∈ s.keys ↔ k ∈ ms.map Member.key) := by
  obtain ⟨g, hr⟩ := hr
  have hk := C32_getKeys_partial (path := []) (g := g) (ms := ms) hd (by simp [Doc.get?, Json.get?, hr]) hne
  unfold Scheme.CheckAbs
  rw [hk]
  simp only
  split
  · rename_i hl
    refine ⟨false, rfl, ?_⟩
    simp only [Bool.false_eq_true, false_iff]
    intro h
    have h1 := hn.length_le_of_subset (fun x hx => (h x).2 hx)
    have h2 := hs.length_le_of_subset (fun x hx => (h x).1 hx)
    simp only [bne_iff_ne, ne_eq] at hl
    omega
  · rename_i hl
    refine ⟨_, rfl, ?_⟩
    simp only [bne_iff_ne, ne_eq, Classical.not_not] at hl
    simp only [List.all_eq_true, List.contains_iff_mem]
    constructor
    · intro h k
      exact ⟨subset_of_length hn h (by omega) k, h k⟩
    · intro h k hk
      exact (h k).2 hk

example : Sample.flat.wf ∧ Sample.flat.root.missOk [] ∧ RootObj Sample.flat Sample.flatMs ∧
    (MakeScheme [str "b", str "a"]).Check Sample.flat.render = .ok true ∧
    (MakeScheme [str "b", str "x"]).Check Sample.flat.render = .ok false := by
  have h1 : Sample.flat.wf := by decide +kernel
  have h2 : Sample.flat.root.missOk [] := by decide +kernel
  have h3 : RootObj Sample.flat Sample.flatMs := ⟨[], rfl⟩
  refine ⟨h1, h2, h3, ?_, ?_⟩ <;> rw [C49_check_partial _ _ _ h1 h3 fun _ _ _ => .inl h2] <;> decide +kernel

example : (Sample.flatMs.map Member.key).Nodup ∧ (MakeScheme [str "b", str "a"]).keys.Nodup ∧ Sample.flat.render ≠ str "{}" ∧
    (MakeScheme [str "b", str "a"]).CheckAbs Sample.flat.render = .ok true ∧
    (MakeScheme [str "b"]).CheckAbs Sample.flat.render = .ok false := by decide +kernel

/-- **C49 is false** for `Check`: the object has no key `,` but `Get` finds one. -/
theorem C49_check_fails : Sample.trap.wf ∧ RootObj Sample.trap Sample.trapMs ∧ str "," ∉ Sample.trapMs.map Member.key ∧
    (MakeScheme [str ","]).Check Sample.trap.render = .ok true := by
  refine ⟨by decide +kernel, ⟨[], rfl⟩, by decide +kernel, by decide +kernel⟩

/-- **C49 is false** for `CheckAbs`: `{}` does not fit the scheme without keys. -/
theorem C49_checkAbs_fails : (MakeScheme []).CheckAbs (str "{}") = .ok false := by decide +kernel

theorem C49_fails : ¬ C49_statement := by
  intro h
  obtain ⟨a, b, -, hb, -, h2⟩ := h ⟨[], .obj [] [], []⟩ [] (MakeScheme []) (by decide +kernel) ⟨[], rfl⟩ (by simp) (by simp [MakeScheme]) (by simp [MakeScheme])
  have e : (MakeScheme []).CheckAbs (⟨[], .obj [] [], []⟩ : Doc).render = .ok false := by decide +kernel
  rw [e] at hb
  cases hb
  simp [MakeScheme] at h2

end Jin
