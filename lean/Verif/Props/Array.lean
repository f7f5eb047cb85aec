import Verif.Props.Get
import Verif.Proof.Split
import Verif.Proof.Format
import Verif.Model.Make
/-!
# Props.Array — C42, C43, C44, C61: reading whole arrays
-/

namespace Jin
open Spec

/-! ### C61 -/

/-- An element is *snug* when no whitespace stands between it and the next comma or
bracket, or it is longer than one byte, or whitespace stands before it. -/
def Spec.Elem.snug (e : Elem Json) : Prop := e.l = [] → e.v.render.length = 1 → e.r = []

instance (e : Elem Json) : Decidable e.snug := by unfold Elem.snug; infer_instance

/-- What the readers see of an element: its content, but a one-byte element with nothing
before it keeps the first whitespace byte after it. -/
def Spec.Elem.seen (e : Elem Json) : Text :=
  if e.snug then e.v.content else e.v.render ++ e.r.take 1

theorem elem_clean {e : Elem Json} (h1 : Ws e.l) (h2 : e.v.wf) (h3 : Ws e.r) : cleanValueString e.padded = .ok e.seen := by
  rw [Elem.padded, cleanValueString_eq h1 h2 h3, Elem.seen]
  split
  · rename_i h; rw [cvsSeen_snug h2 h]
  · rename_i h
    unfold cvsSeen
    rw [if_pos]
    unfold Elem.snug at h
    constructor <;> (apply Classical.byContradiction; intro hh; apply h; intro a b; first | exact absurd a hh | exact absurd b hh)

theorem seen_snug {e : Elem Json} (h : e.snug) : e.seen = e.v.content := by rw [Elem.seen, if_pos h]

theorem getString_arr {d : Doc} {p : List Text} {g : Text} {es : List (Elem Json)} (hd : d.wf)
    (h : d.get? p = some (.arr g es)) (hp : p = [] → d.lead = [] ∧ d.trail = []) :
    GetString d.render p = .ok (Json.arr g es).render ∧ (Json.arr g es).wf := by
  refine ⟨?_, get_wf p (doc_wf.1 hd).2.1 h⟩
  by_cases hp' : p = []
  · subst hp'
    obtain ⟨e1, e2⟩ := hp rfl
    have : d.root = .arr g es := by simpa [Doc.get?, Json.get?] using h
    show Out.ok d.render = _
    rw [Doc.render, e1, e2, this]; simp
  · exact get_ok hd hp' h

section
variable {d : Doc} {p : List Text} {g : Text} {es : List (Elem Json)}

/-- All of C61 on one array: what each reader returns, including the trimming fault. -/
theorem C61_exact {F : Type} (fl : FloatLib F) (hd : d.wf) (h : d.get? p = some (.arr g es)) (hes : es ≠ [])
    (hp : p = [] → d.lead = [] ∧ d.trail = []) :
    GetStringArray d.render p = .ok (es.map Elem.seen) ∧
    GetIntArray d.render p = readAll convInt convInt (es.map Elem.padded) ∧
    GetFloatArray fl d.render p = readAll (convFloat fl) (convFloat fl) (es.map Elem.padded) ∧
    GetBoolArray d.render p = readAll convBool convBoolLast (es.map Elem.padded) := by
  obtain ⟨h1, h2⟩ := getString_arr hd h hp
  obtain ⟨b1, b2⟩ := arr_bracketed g es
  have hpc : pieces g es = es.map Elem.padded := by rw [pieces, if_neg (by simpa using hes)]
  have hlt : ¬ (Json.arr g es).render.length < 2 := by omega
  have hw : ∀ e ∈ es, Ws e.l ∧ e.v.wf ∧ Ws e.r := by
    simp only [Json.wf, Bool.and_eq_true] at h2
    exact wfElems_iff.1 h2.2
  refine ⟨?_, ?_, ?_, ?_⟩
  · have hlen : ¬ (Json.arr g es).render.length = 2 := by
      obtain ⟨⟨l, v, r⟩, es', rfl⟩ := List.exists_cons_of_ne_nil hes
      have := List.length_pos_iff.2 (render_ne_nil (hw _ List.mem_cons_self).2.1)
      simp only at this
      rw [render_arr]
      simp [renderElems]
      omega
    unfold GetStringArray
    rw [h1]
    simp only [Out.bind_ok]
    rw [if_neg hlt, if_pos b1, ParseArray, if_neg hlt]
    have b1' := b1
    rw [bracketed] at b1'
    rw [if_pos b1', if_neg (by simpa using hlen), splitArray_ok h2, hpc,
      readAll_ok (f := Elem.seen) (fun e he => by
        obtain ⟨w1, w2, w3⟩ := hw e he
        exact ⟨elem_clean w1 w2 w3, elem_clean w1 w2 w3⟩)]
    rfl
  · unfold GetIntArray
    rw [h1]
    simp only [Out.bind_ok]
    rw [if_neg hlt, if_pos b1, splitArray_ok h2, hpc]
  · unfold GetFloatArray
    rw [h1]
    simp only [Out.bind_ok]
    rw [if_neg hlt, if_pos b1, splitArray_ok h2, hpc]
  · unfold GetBoolArray
    rw [h1]
    simp only [Out.bind_ok]
    rw [if_neg hlt, if_pos b1, splitArray_ok h2, hpc]

/-- Full statement of C61 (for the string reader; it already fails there). -/
def C61_statement : Prop := ∀ (d : Doc) (p : List Text) (g : Text) (es : List (Elem Json)), d.wf → d.get? p = some (.arr g es) →
  es ≠ [] → GetStringArray d.render p = .ok (es.map fun e => e.v.content)

/-- **C61 (partial)** Snug elements, and no whitespace around a root array: the contents of
all elements in order.  Missing: elements that are not snug (`C61_fails`), where
`C61_exact` says what is returned instead, and a root array with whitespace around it
(`C61_root_space`). -/
theorem C61_strings_partial (hd : d.wf) (h : d.get? p = some (.arr g es)) (hes : es ≠ [])
    (hp : p = [] → d.lead = [] ∧ d.trail = []) (hs : ∀ e ∈ es, e.snug) :
    GetStringArray d.render p = .ok (es.map fun e => e.v.content) := by
  rw [(C61_exact (F := Unit) ⟨fun _ => none, fun _ => []⟩ hd h hes hp).1]
  congr 1
  exact List.map_congr_left fun e he => seen_snug (hs e he)

theorem elems_wf (hd : d.wf) (h : d.get? p = some (.arr g es)) : ∀ e ∈ es, Ws e.l ∧ e.v.wf ∧ Ws e.r := by
  have := get_wf p (doc_wf.1 hd).2.1 h
  simp only [Json.wf, Bool.and_eq_true] at this
  exact wfElems_iff.1 this.2

/-- **C61 (partial)** Integers: all elements when each reads as a 64-bit integer. -/
theorem C61_ints_partial (hd : d.wf) (h : d.get? p = some (.arr g es)) (hes : es ≠ [])
    (hp : p = [] → d.lead = [] ∧ d.trail = []) (hs : ∀ e ∈ es, e.snug) (f : Elem Json → Int)
    (hf : ∀ e ∈ es, readInt e.v.content = some (f e)) :
    GetIntArray d.render p = .ok (es.map f) := by
  rw [(C61_exact (F := Unit) ⟨fun _ => none, fun _ => []⟩ hd h hes hp).2.1]
  refine readAll_ok fun e he => ?_
  obtain ⟨w1, w2, w3⟩ := elems_wf hd h e he
  have : convInt e.padded = .ok (f e) := by
    unfold convInt
    rw [elem_clean w1 w2 w3, seen_snug (hs e he)]
    simp only [Out.bind_ok, atoi_eq, hf e he]
  exact ⟨this, this⟩

/-- **C61 (partial)** Floats: all elements when `strconv.ParseFloat` reads each. -/
theorem C61_floats_partial {F : Type} (fl : FloatLib F) (hd : d.wf) (h : d.get? p = some (.arr g es)) (hes : es ≠ [])
    (hp : p = [] → d.lead = [] ∧ d.trail = []) (hs : ∀ e ∈ es, e.snug) (f : Elem Json → F)
    (hf : ∀ e ∈ es, fl.parse e.v.content = some (f e)) :
    GetFloatArray fl d.render p = .ok (es.map f) := by
  rw [(C61_exact fl hd h hes hp).2.2.1]
  refine readAll_ok fun e he => ?_
  obtain ⟨w1, w2, w3⟩ := elems_wf hd h e he
  have : convFloat fl e.padded = .ok (f e) := by
    unfold convFloat
    rw [elem_clean w1 w2 w3, seen_snug (hs e he)]
    simp only [Out.bind_ok, hf e he]
  exact ⟨this, this⟩

/-- **C61** Booleans: no condition on the whitespace between elements. -/
theorem C61_bools (hd : d.wf) (h : d.get? p = some (.arr g es)) (hes : es ≠ [])
    (hp : p = [] → d.lead = [] ∧ d.trail = []) (f : Elem Json → Bool)
    (hf : ∀ e ∈ es, e.v.content = if f e then str "true" else str "false") :
    GetBoolArray d.render p = .ok (es.map f) := by
  have e1 : str "true" = bTrue := by decide +kernel
  have e2 : str "false" = bFalse := by decide +kernel
  rw [(C61_exact (F := Unit) ⟨fun _ => none, fun _ => []⟩ hd h hes hp).2.2.2]
  refine readAll_ok fun e he => ?_
  obtain ⟨w1, w2, w3⟩ := elems_wf hd h e he
  have hc := hf e he
  have hs : e.snug := by
    intro _ h1 
    have h2 := (one_byte w2 h1).1
    rw [h2] at hc
    rw [hc] at h1
    split at h1 <;> exact absurd h1 (by decide +kernel)
  rw [e1, e2] at hc
  have hne : ¬ bFalse = bTrue := by decide
  unfold convBool convBoolLast
  rw [elem_clean w1 w2 w3, seen_snug hs, hc]
  cases f e <;> simp [hne]

/-- The first element that does not read as an integer makes `GetIntArray` fail. -/
theorem C61_ints_error (hd : d.wf) (pre : List (Elem Json)) (e : Elem Json) (post : List (Elem Json))
    (h : d.get? p = some (.arr g (pre ++ e :: post)))
    (hp : p = [] → d.lead = [] ∧ d.trail = []) (hs : ∀ e ∈ pre, e.snug)
    (hf : ∀ e ∈ pre, (readInt e.v.content).isSome) (he : readInt e.seen = none) :
    GetIntArray d.render p = .err (.integerParse e.seen) := by
  rw [(C61_exact (F := Unit) ⟨fun _ => none, fun _ => []⟩ hd h (by simp) hp).2.1]
  have hw := elems_wf hd h
  have bad : convInt e.padded = .err (.integerParse e.seen) := by
    obtain ⟨w1, w2, w3⟩ := hw e (by simp)
    unfold convInt
    rw [elem_clean w1 w2 w3]
    simp only [Out.bind_ok, atoi_eq, he]
  have good : ∀ e ∈ pre, ∃ n, convInt e.padded = .ok n := by
    intro e he
    obtain ⟨w1, w2, w3⟩ := hw e (by simp [he])
    obtain ⟨n, hn⟩ := Option.isSome_iff_exists.1 (hf e he)
    refine ⟨n, ?_⟩
    unfold convInt
    rw [elem_clean w1 w2 w3, seen_snug (hs e he)]
    simp only [Out.bind_ok, atoi_eq, hn]
  clear hs hf hw h
  induction pre with
  | nil =>
    cases post with
    | nil => simp [readAll, bad, Out.map]
    | cons x xs => simp [readAll, bad]
  | cons x xs ih =>
    obtain ⟨n, hn⟩ := good x List.mem_cons_self
    have := ih fun e he => good e (List.mem_cons_of_mem _ he)
    obtain ⟨y, ys, hy⟩ : ∃ y ys, xs ++ e :: post = y :: ys := List.exists_cons_of_ne_nil (by simp)
    rw [List.cons_append, List.map_cons]
    rw [hy] at this ⊢
    rw [List.map_cons, readAll, ← List.map_cons, this, hn]
    · rfl
    · simp

end

/-- **C61 is false**: one-byte elements followed by whitespace. -/
theorem C61_fails : ¬ C61_statement := by
  intro h
  have := h ⟨[], .arr [] [⟨[], .lit (str "1"), str " "⟩, Sample.el (.lit (str "2"))], []⟩ [] []
    [⟨[], .lit (str "1"), str " "⟩, Sample.el (.lit (str "2"))] (by decide +kernel) (by decide +kernel) (by simp)
  revert this
  decide +kernel

/-- `GetIntArray` refuses such an array. -/
theorem C61_ints_fail : GetIntArray (str "[1 ,2]") [] = .err (.integerParse (str "1 ")) := by decide +kernel

/-- A root array with whitespace before or after it is refused. -/
theorem C61_root_space (d : Doc) (hd : d.wf) (g : Text) (es : List (Elem Json)) (hr : d.root = .arr g es)
    (h : d.lead ≠ [] ∨ d.trail ≠ []) : GetStringArray d.render [] = .err (.stringArrayParse d.render) := by
  obtain ⟨w1, w2, w3⟩ := doc_wf.1 hd
  have hb : bracketed d.render = false := by
    unfold bracketed
    rw [Doc.render]
    rcases h with h | h
    · obtain ⟨c, t, hc⟩ := List.exists_cons_of_ne_nil h
      rw [hc, ws_cons, Bool.and_eq_true] at w1
      have := (isWs_ne w1.1).2.2.2.2.1
      rw [hc]; simp [this]
    · rcases List.eq_nil_or_concat d.trail with e | ⟨t, c, e⟩
      · exact absurd e h
      · rw [List.concat_eq_append] at e
        rw [e] at w3 ⊢
        have hc : isWs c := by simp [Ws] at w3; exact w3.2
        have := (isWs_ne hc).2.2.2.2.2.1
        rw [← List.append_assoc, ← List.append_assoc, List.getLast?_concat]
        simp [this]
  have hl : ¬ d.render.length < 2 := by
    rw [Doc.render, hr]
    have := (arr_bracketed g es).2
    simp; omega
  show (Out.ok d.render >>= fun val => _) = _
  simp only [Out.bind_ok]
  rw [if_neg hl, if_neg (by simp [hb])]

/-- The empty array: `[]` gives the empty slice for strings and a panic for the others;
whitespace between the brackets is taken for an element. -/
theorem C61_empty : GetStringArray (str "[]") [] = .ok [] ∧ GetIntArray (str "[]") [] = .panic ∧ GetBoolArray (str "[]") [] = .panic ∧
    GetStringArray (str "[ ]") [] = .ok [str " "] ∧ GetStringArray (str "[    ]") [] = .panic := by decide +kernel

example : Sample.doc.get? Sample.toArr = some (.arr [] Sample.elems) ∧ Sample.elems ≠ [] ∧ (∀ e ∈ Sample.elems, e.snug) ∧
    GetStringArray Sample.doc.render Sample.toArr = .ok [str "10", str "x]\\\\", str "{\"k\":null}", str "[]"] := by
  have hs : ∀ e ∈ Sample.elems, e.snug := by decide +kernel
  refine ⟨Sample.get_arr, by simp [Sample.elems], hs, ?_⟩
  rw [C61_strings_partial Sample.doc_wf Sample.get_arr (by simp [Sample.elems]) (fun e => absurd e (by decide)) hs]
  decide +kernel
example : GetIntArray Sample.doc.render Sample.toArr = .err (.integerParse (str "x]\\\\")) := by
  rw [C61_ints_error Sample.doc_wf [⟨str " ", .lit (str "10"), str " "⟩] ⟨[], .str (str "x]\\\\"), str " "⟩
    [⟨str " ", .obj [] [Sample.mem (str "k") (.lit (str "null"))], []⟩, ⟨str " ", .arr [] [], str " "⟩]
    Sample.get_arr (fun e => absurd e (by decide)) (by decide +kernel) (by decide +kernel) (by decide +kernel)]
  decide +kernel
/-- ` true,false ` -/
def Sample.boolElems : List (Elem Json) := [⟨str " ", .lit (str "true"), []⟩, ⟨[], .lit (str "false"), str " "⟩]
/-- ` {"k" : [ true,false ]}` -/
def Sample.bools : Doc := ⟨str " ", .obj [] [⟨[], str "k", str " ", str " ", .arr [] Sample.boolElems, []⟩], []⟩
example : Sample.bools.render = str " {\"k\" : [ true,false ]}" ∧ GetBoolArray Sample.bools.render [str "k"] = .ok [true, false] := by
  refine ⟨by decide +kernel, ?_⟩
  rw [C61_bools (g := []) (es := Sample.boolElems) (by decide +kernel) (by decide +kernel) (by simp [Sample.boolElems])
    (fun e => absurd e (by decide)) (fun e => e.v.content == str "true") (by decide +kernel)]
  decide +kernel

/-! ### C42, C43, C44: building and reading back -/

/-- A value with no whitespace around it. -/
def bare (v : Json) : Elem Json := ⟨[], v, []⟩

theorem eachComma_render : ∀ (x : Json) (xs : List Json),
    (eachComma ((x :: xs).map Json.render)) = renderElems ((x :: xs).map bare) ++ [44]
  | x, [] => by simp [eachComma, bare, renderElems]
  | x, y :: ys => by
    have := eachComma_render y ys
    rw [List.map_cons, List.map_cons (l := y :: ys), bare, renderElems, eachComma, List.map_cons, List.flatten_cons]
    rw [eachComma] at this
    rw [this]
    simp

/-- The `MakeArray…` functions write the array of the given values. -/
theorem makeArr_render {vs : List Json} (h : vs ≠ []) :
    makeArr (some (vs.map Json.render)) = (⟨[], .arr [] (vs.map bare), []⟩ : Doc).render := by
  obtain ⟨x, xs, rfl⟩ := List.exists_cons_of_ne_nil h
  rw [makeArr, eachComma_render, closeWith, ← List.cons_append, List.dropLast_concat, Doc.render, render_arr]
  simp

theorem bare_wf {vs : List Json} (h : ∀ v ∈ vs, v.wf) : (⟨[], .arr [] (vs.map bare), []⟩ : Doc).wf := by
  rw [doc_wf]
  refine ⟨rfl, ?_, rfl⟩
  simp only [Json.wf, Bool.and_eq_true]
  refine ⟨rfl, wfElems_iff.2 ?_⟩
  intro e he
  obtain ⟨v, hv, rfl⟩ := List.mem_map.1 he
  exact ⟨rfl, h v hv, rfl⟩

theorem bare_snug {vs : List Json} : ∀ e ∈ vs.map bare, e.snug := by
  intro e he
  obtain ⟨v, -, rfl⟩ := List.mem_map.1 he
  exact fun _ _ => rfl

/-- Element `i` of an array written by one of the `MakeArray…` functions. -/
theorem bare_get {vs : List Json} (h : ∀ v ∈ vs, v.wf) {i : Nat} {v : Json} (hi : vs[i]? = some v) (hb : (i : Int) ≤ 9223372036854775807) :
    Get (⟨[], .arr [] (vs.map bare), []⟩ : Doc).render [itoa i] = .ok v.content := by
  refine get_ok (bare_wf h) (by simp) ?_
  simp [Doc.get?, Json.get?, Json.child?, readIndex_itoa hb, hi, bare]

/-- **C42** `GetIntArray` reads back what `MakeArrayInt` wrote. -/
theorem C42_int_roundtrip (ns : List Int) (hne : ns ≠ [])
    (hr : ∀ n ∈ ns, -9223372036854775808 ≤ n ∧ n ≤ 9223372036854775807) :
    GetIntArray (MakeArrayInt (some ns)) [] = .ok ns ∧
      ∀ (i : Nat) (n : Int), ns[i]? = some n → (i : Int) ≤ 9223372036854775807 → Get (MakeArrayInt (some ns)) [itoa i] = .ok (itoa n) := by
  have e : MakeArrayInt (some ns) = (⟨[], .arr [] ((ns.map fun n => Json.lit (itoa n)).map bare), []⟩ : Doc).render := by
    rw [← makeArr_render (by simpa using hne)]
    simp [MakeArrayInt, Function.comp_def]
  have hw : ∀ v ∈ ns.map fun n => Json.lit (itoa n), v.wf := by
    intro v hv
    obtain ⟨n, -, rfl⟩ := List.mem_map.1 hv
    exact itoa_wf n
  rw [e]
  constructor
  · rw [C61_ints_partial (p := []) (g := []) (es := (ns.map fun n => Json.lit (itoa n)).map bare) (bare_wf hw) rfl (by simpa using hne)
      (fun _ => ⟨rfl, rfl⟩) bare_snug (fun e => (readInt e.v.content).getD 0)]
    · congr 1
      simp only [List.map_map]
      conv => rhs; rw [← List.map_id ns]
      refine List.map_congr_left fun n hn => ?_
      simp [bare, Json.content, readInt_itoa (hr n hn).1 (hr n hn).2]
    · intro e he
      simp only [List.map_map, List.mem_map] at he
      obtain ⟨n, hn, rfl⟩ := he
      simp [bare, Json.content, readInt_itoa (hr n hn).1 (hr n hn).2]
  · intro i n hi hb
    rw [bare_get hw (v := .lit (itoa n)) (by simp [hi]) hb]
    simp [Json.content]

example : GetIntArray (MakeArrayInt (some [7, -30, 9223372036854775807])) [] = .ok [7, -30, 9223372036854775807] :=
  (C42_int_roundtrip _ (by decide) (by decide)).1

/-- **C43** `GetBoolArray` reads back what `MakeArrayBool` wrote. -/
theorem C43_bool_roundtrip (bs : List Bool) (hne : bs ≠ []) : GetBoolArray (MakeArrayBool (some bs)) [] = .ok bs := by
  have e1 : str "true" = bTrue := by decide +kernel
  have e2 : str "false" = bFalse := by decide +kernel
  have e : MakeArrayBool (some bs) = (⟨[], .arr [] ((bs.map fun b => Json.lit (boolText b)).map bare), []⟩ : Doc).render := by
    rw [← makeArr_render (by simpa using hne)]
    simp [MakeArrayBool, Function.comp_def]
  have hw : ∀ v ∈ bs.map fun b => Json.lit (boolText b), v.wf := by
    intro v hv
    obtain ⟨b, -, rfl⟩ := List.mem_map.1 hv
    cases b <;> decide
  rw [e, C61_bools (p := []) (g := []) (es := (bs.map fun b => Json.lit (boolText b)).map bare) (bare_wf hw) rfl (by simpa using hne)
    (fun _ => ⟨rfl, rfl⟩) (fun e => e.v.content == bTrue)]
  · congr 1
    simp only [List.map_map]
    conv => rhs; rw [← List.map_id bs]
    refine List.map_congr_left fun b _ => ?_
    cases b <;> simp [bare, Json.content, boolText] <;> decide
  · intro e he
    simp only [List.map_map, List.mem_map] at he
    obtain ⟨b, -, rfl⟩ := he
    rw [e1, e2]
    cases b <;> simp [bare, Json.content, boolText]

example : GetBoolArray (MakeArrayBool (some [true, false, false])) [] = .ok [true, false, false] :=
  C43_bool_roundtrip _ (by decide)

/-- **C44** `GetStringArray` reads back what `MakeArrayString` wrote, for strings that are
valid string content and not wrapped in brackets or braces; `isFloat` is whatever
`strconv.ParseFloat` accepts, as long as that is a token. -/
theorem C44_string_roundtrip (isFloat : Bytes → Bool) (hf : ∀ v, isFloat v = true → (Json.lit v).wf) (ss : List Text)
    (hne : ss ≠ []) (hs : ∀ s ∈ ss, PlainText s) :
    GetStringArray (MakeArrayString isFloat (some ss)) [] = .ok ss ∧
      ∀ (i : Nat) (s : Text), ss[i]? = some s → (i : Int) ≤ 9223372036854775807 →
        Get (MakeArrayString isFloat (some ss)) [itoa i] = .ok s := by
  obtain ⟨vs, h1, h2, h3⟩ : ∃ vs : List Json, (∀ v ∈ vs, v.wf) ∧ ss.map (formatType isFloat) = vs.map Json.render ∧ vs.map Json.content = ss := by
    clear hne
    induction ss with
    | nil => exact ⟨[], by simp, rfl, rfl⟩
    | cons s ss ih =>
      obtain ⟨vs, h1, h2, h3⟩ := ih fun s h => hs s (List.mem_cons_of_mem _ h)
      obtain ⟨x, g1, -, g3, g4⟩ := formatType_value hf (hs s List.mem_cons_self)
      refine ⟨x :: vs, ?_, by simp [h2, g3], by simp [h3, g4]⟩
      intro v hv
      rcases List.mem_cons.1 hv with rfl | hv
      · exact g1
      · exact h1 v hv
  have hv : vs ≠ [] := by rintro rfl; exact hne (by simpa using h3.symm)
  have e : MakeArrayString isFloat (some ss) = (⟨[], .arr [] (vs.map bare), []⟩ : Doc).render := by
    rw [← makeArr_render hv, ← h2]; rfl
  rw [e]
  constructor
  · rw [C61_strings_partial (p := []) (g := []) (es := vs.map bare) (bare_wf h1) rfl (by simpa using hv) (fun _ => ⟨rfl, rfl⟩) bare_snug]
    rw [List.map_map, ← h3]
    rfl
  · intro i s hi hb
    rw [← h3, List.getElem?_map] at hi
    obtain ⟨v, hv, rfl⟩ := Option.map_eq_some_iff.1 hi
    exact bare_get h1 hv hb

example : (∀ s ∈ [str "a b", str "", str "null", str "12", str "[x"], PlainText s) ∧
    MakeArrayString (fun _ => false) (some [str "a b", str "", str "null", str "12", str "[x"]) = str "[\"a b\",\"\",null,12,\"[x\"]" ∧
    GetStringArray (MakeArrayString (fun _ => false) (some [str "a b", str "", str "null", str "12", str "[x"])) [] =
      .ok [str "a b", str "", str "null", str "12", str "[x"] := by
  have h : ∀ s ∈ [str "a b", str "", str "null", str "12", str "[x"], PlainText s := by
    unfold PlainText; decide +kernel
  exact ⟨h, by decide +kernel, (C44_string_roundtrip _ (by simp) _ (by simp) h).1⟩

end Jin
