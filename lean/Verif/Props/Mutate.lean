import Verif.Props.Scheme
/-!
# Props.Mutate — C50: `Scheme.MutateJson` and `Scheme.MutateJsonAbs`
-/

namespace Jin
open Spec

/-! ### `formatType` on what `Get` returns -/

/-- Formatting twice is formatting once. -/
theorem formatType_twice {isFloat : Bytes → Bool} (hf : ∀ v, isFloat v = true → (Json.lit v).wf) (s : Bytes) :
    formatType isFloat (formatType isFloat s) = formatType isFloat s := by
  have h : formatType isFloat s = s ∨ formatType isFloat s = quote s := by
    cases s with
    | nil => exact .inr rfl
    | cons c r =>
      simp only [formatType]
      repeat' split
      all_goals first | exact .inl rfl | exact .inr rfl
  rcases h with h | h
  · rw [h, h]
  · rw [h]
    exact formatType_marked hf (.inl ⟨rfl, rfl⟩)

theorem tokens_plain {t : Text} (h : t.all tokByte) : PlainText t := by
  have hne : ∀ c ∈ t, c ≠ 34 ∧ c ≠ 92 ∧ c ≠ 91 ∧ c ≠ 123 := by
    intro c hc
    have := tokByte_ne (List.all_eq_true.1 h c hc)
    exact ⟨this.2.1, this.2.2.1, this.2.2.2.2.2.1, this.2.2.2.2.2.2.2.1⟩
  have hh : ∀ c, t.head? = some c → c ∈ t := fun c h => List.mem_of_mem_head? h
  refine ⟨?_, ?_, ?_⟩
  · clear h hh
    induction t with
    | nil => rfl
    | cons c t ih =>
      have := hne c List.mem_cons_self
      rw [strOk_cons this.2.1, ih fun c hc => hne c (List.mem_cons_of_mem _ hc)]
      simp [this.1]
  · rintro ⟨h, -⟩; exact (hne _ (hh _ h)).2.2.1 rfl
  · rintro ⟨h, -⟩; exact (hne _ (hh _ h)).2.2.2 rfl

/-- A value that survives `Get` and `formatType`: anything but a string whose content is
wrapped in brackets or braces. -/
def Keeps (u : Json) : Prop := ∀ raw, u = .str raw → PlainText raw

/-- The value written for a value of the source: the same content, a container unchanged. -/
def Same (u v : Json) : Prop := v.content = u.content ∧ v.isContainer = u.isContainer ∧ (u.isContainer = true → v = u)

theorem formatType_source {isFloat : Bytes → Bool} (hf : ∀ v, isFloat v = true → (Json.lit v).wf) {u : Json} (hu : u.wf) (hk : Keeps u) :
    ∃ v : Json, v.wf ∧ formatType isFloat u.content = v.render ∧ Same u v := by
  have sc : PlainText u.content → u.isContainer = false → ∃ v : Json, v.wf ∧ formatType isFloat u.content = v.render ∧ Same u v := by
    intro hp hc
    obtain ⟨v, h1, h2, h3, h4⟩ := formatType_value hf hp
    exact ⟨v, h1, h3, h4, by rw [h2, hc], by simp [hc]⟩
  have ct : u.isContainer = true → u.content = u.render → ∃ v : Json, v.wf ∧ formatType isFloat u.content = v.render ∧ Same u v := by
    intro hc he
    refine ⟨u, hu, ?_, rfl, rfl, fun _ => rfl⟩
    rw [he, render_container hc]
    refine formatType_marked hf ?_
    cases u with
    | arr g es => exact .inr (.inl ⟨rfl, rfl⟩)
    | obj g ms => exact .inr (.inr ⟨rfl, rfl⟩)
    | _ => simp [Json.isContainer] at hc
  cases u with
  | lit t =>
    refine sc ?_ rfl
    show PlainText (Json.lit t).render
    rw [render_lit]
    exact tokens_plain (lit_wf.1 hu).2
  | str raw => exact sc (hk raw rfl) rfl
  | arr g es => exact ct rfl rfl
  | obj g ms => exact ct rfl rfl

/-! ### One member more -/

theorem renderMembers_concat (m : Member Json) (ms : List (Member Json)) :
    renderMembers (ms ++ [m]) = renderMembers ms ++ ((if ms = [] then [] else [44]) ++ renderMembers [m]) := by
  have h0 : renderMembers ([] : List (Member Json)) = [] := rfl
  generalize hm : renderMembers [m] = t
  induction ms with
  | nil => simp [hm, h0]
  | cons x ms ih =>
    by_cases h : ms = []
    · have h1 : ([] ++ [m]).isEmpty = false := rfl
      rw [h, List.cons_append, renderMembers, h1, List.nil_append, hm, renderMembers]
      simp
    · have h1 : (ms ++ [m]).isEmpty = false := by simp
      have h2 : ms.isEmpty = false := by simpa using h
      rw [List.cons_append, renderMembers, h1, ih, renderMembers, h2]
      simp [h]

theorem bareMs_concat {ks : List Text} {vs : List Json} (hl : ks.length = vs.length) (k : Text) (v : Json) :
    bareMs (ks ++ [k]) (vs ++ [v]) = bareMs ks vs ++ [bareM k v] := by
  rw [bareMs, List.zipWith_append hl]; rfl

/-- A value after which a missing key is recognised. -/
def Tame (u : Json) : Prop := u.isContainer = true → u.allStr noBracket = true

/-- What is written for a value of the source. -/
def written (isFloat : Bytes → Bool) (u : Json) : Json :=
  if u.isContainer then u else if formatType isFloat u.content = u.content then .lit u.content else .str u.content

theorem written_ok {isFloat : Bytes → Bool} (hf : ∀ v, isFloat v = true → (Json.lit v).wf) {u : Json} (hu : u.wf) (hk : Keeps u) :
    (written isFloat u).wf ∧ formatType isFloat u.content = (written isFloat u).render ∧ Same u (written isFloat u) := by
  obtain ⟨v, h1, h2, h3, h4, h5⟩ := formatType_source hf hu hk
  suffices written isFloat u = v by rw [this]; exact ⟨h1, h2, h3, h4, h5⟩
  unfold written
  cases hc : u.isContainer with
  | true => rw [if_pos rfl, h5 hc]
  | false =>
    rw [hc] at h4
    rw [if_neg (by simp), h2, ← h3]
    cases v with
    | lit t =>
      have e : (Json.lit t).content = (Json.lit t).render := rfl
      rw [if_pos e.symm, e, render_lit]
    | str raw =>
      rw [if_neg]
      · rfl
      · intro h
        have h := congrArg List.length h
        rw [render_str] at h
        simp [Json.content] at h
        omega
    | arr g es => simp [Json.isContainer] at h4
    | obj g ms => simp [Json.isContainer] at h4

theorem written_tame {isFloat : Bytes → Bool} {u : Json} (h : Tame u) : Tame (written isFloat u) := by
  unfold written
  split
  · exact h
  · split <;> simp [Tame, Json.isContainer]

theorem bareObj_missOk {ks : List Text} {vs : List Json} {k : Text} {v : Json} (hl : ks.length = vs.length) (hv : Tame v) :
    (bareObj (ks ++ [k]) (vs ++ [v])).root.missOk [] := by
  simp only [bareObj, bareMs_concat hl, Json.missOk, List.getLast?_nil, Json.entries, List.map_append, List.map_cons, List.map_nil,
    List.getLast?_concat, Bool.or_eq_true, Bool.not_eq_true']
  cases h : v.isContainer with
  | false => exact .inl h
  | true => exact .inr (hv h)

theorem addKVString_bare {isFloat : Bytes → Bool} (hf : ∀ v, isFloat v = true → (Json.lit v).wf) {ks : List Text} {vs : List Json}
    {k : Text} {v : Json} {s : Bytes} (hl : ks.length = vs.length) (hks : ∀ k ∈ ks, strOk k) (hvs : ∀ v ∈ vs, v.wf)
    (hne : k ≠ []) (hk : k ∉ ks) (hs : formatType isFloat s = v.render) (hm : ks ≠ [] → (bareObj ks vs).root.missOk []) :
    AddKeyValueString isFloat (bareObj ks vs).render k (formatType isFloat s) [] =
      .done (bareObj (ks ++ [k]) (vs ++ [v])).render none := by
  have hg : (bareObj ks vs).get? [] = some (.obj [] (bareMs ks vs)) := rfl
  have hd := bareObj_wf hks hvs
  have hi : memberIdx (bareMs ks vs) k = none := by
    unfold memberIdx
    rw [List.findIdx?_eq_none_iff]
    intro m h
    have : m.key ∈ ks := by rw [← bareMs_keys hl]; exact List.mem_map_of_mem h
    have : m.key ≠ k := by rintro rfl; exact hk this
    simpa using this
  rw [AddKeyValueString, if_neg (by cases k <;> simp_all), formatType_twice hf, hs, addkv_ok hd hg ?_ v]
  · congr 1
    show Doc.render ⟨[], addEnt (.obj [] (bareMs ks vs)) (.member k [] [] v), []⟩ = _
    rw [Doc.render, addEnt_render rfl (by rfl), bareObj, Doc.render, bareMs_concat hl, render_obj, renderMembers_concat]
    have := render_container (v := .obj [] (bareMs ks vs)) rfl
    rw [render_obj] at this
    by_cases he : bareMs ks vs = []
    · simp [he, inner, ents, gapOf, opnOf, clsOf, Entry.text, renderMembers, bareM]
    · rw [if_neg (by simpa using he)] at this
      simp only [List.cons.injEq] at this
      have hin : inner (.obj [] (bareMs ks vs)) = renderMembers (bareMs ks vs) := (List.append_cancel_right this.2).symm
      rw [hin]
      simp [he, ents, opnOf, clsOf, Entry.text, renderMembers, bareM]
  · by_cases he : ks = []
    · exact .inl (by simp [he, bareMs])
    · exact .inr ⟨_, core_miss (p := []) (qs := []) hd hg hi (hm he) false, errEqual_keyNotFound k⟩

/-! ### The loops -/

/-- What the loops need of the keys still to come and the object built so far. -/
structure Ready (src : Text → Json) (done todo : List Text) : Prop where
  nodup : (done ++ todo).Nodup
  key : ∀ k ∈ done ++ todo, strOk k
  ne : ∀ k ∈ todo, k ≠ []
  val : ∀ k ∈ done ++ todo, (src k).wf ∧ Keeps (src k)
  tame : ∀ k ∈ (done ++ todo).dropLast, Tame (src k)

theorem Ready.step {src : Text → Json} {done todo : List Text} {k : Text} (h : Ready src done (k :: todo)) :
    Ready src (done ++ [k]) todo := by
  have e : done ++ k :: todo = done ++ [k] ++ todo := by simp
  exact ⟨e ▸ h.nodup, e ▸ h.key, fun x hx => h.ne x (List.mem_cons_of_mem _ hx), e ▸ h.val, e ▸ h.tame⟩

theorem Ready.add {isFloat : Bytes → Bool} (hf : ∀ v, isFloat v = true → (Json.lit v).wf) {src : Text → Json} {done todo : List Text} {k : Text}
    (h : Ready src done (k :: todo)) :
    AddKeyValueString isFloat (bareObj done (done.map fun k => written isFloat (src k))).render k (formatType isFloat (src k).content) [] =
      .done (bareObj (done ++ [k]) ((done ++ [k]).map fun k => written isFloat (src k))).render none := by
  rw [List.map_append]
  refine addKVString_bare hf (by simp) (fun x hx => h.key x (by simp [hx])) ?_ (h.ne k List.mem_cons_self) ?_
    (written_ok hf (h.val k (by simp)).1 (h.val k (by simp)).2).2.1 ?_
  · intro v hv
    obtain ⟨x, hx, rfl⟩ := List.mem_map.1 hv
    exact (written_ok hf (h.val x (by simp [hx])).1 (h.val x (by simp [hx])).2).1
  · intro hk
    exact (List.nodup_append.1 h.nodup).2.2 k hk k List.mem_cons_self rfl
  · intro hne
    rcases List.eq_nil_or_concat done with he | ⟨l, x, rfl⟩
    · exact absurd he hne
    · rw [List.concat_eq_append] at h ⊢
      rw [List.map_append]
      refine bareObj_missOk (by simp) (written_tame (h.tame x ?_))
      rw [List.dropLast_append_of_ne_nil (by simp)]
      simp

theorem mutateAbs_ok {isFloat : Bytes → Bool} (hf : ∀ v, isFloat v = true → (Json.lit v).wf) {src : Text → Json} {json : Bytes} :
    ∀ {todo done : List Text}, Ready src done todo → (∀ k ∈ todo, Get json [k] = .ok (src k).content) →
    mutateAbsLoop isFloat json todo (bareObj done (done.map fun k => written isFloat (src k))).render =
      .ok (bareObj (done ++ todo) ((done ++ todo).map fun k => written isFloat (src k))).render
  | [], done, _, _ => by simp [mutateAbsLoop]
  | k :: todo, done, h, hg => by
    have := mutateAbs_ok hf h.step fun x hx => hg x (List.mem_cons_of_mem _ hx)
    rw [mutateAbsLoop, GetString, hg k List.mem_cons_self, Out.bind_ok, h.add hf]
    simp only [this]
    simp

theorem mutate_ok {isFloat : Bytes → Bool} (hf : ∀ v, isFloat v = true → (Json.lit v).wf) {src : Text → Json} {json : Bytes} :
    ∀ {todo done : List Text}, Ready src done todo →
    (∀ k ∈ todo, Get json [k] = .ok (src k).content ∨ ((∃ e, Get json [k] = .err e) ∧ src k = .str [])) →
    mutateLoop isFloat json todo (bareObj done (done.map fun k => written isFloat (src k))).render =
      .ok (some (bareObj (done ++ todo) ((done ++ todo).map fun k => written isFloat (src k))).render)
  | [], done, _, _ => by simp [mutateLoop]
  | k :: todo, done, h, hg => by
    have := mutate_ok hf h.step fun x hx => hg x (List.mem_cons_of_mem _ hx)
    have ha := h.add hf
    rw [mutateLoop, GetString]
    rcases hg k List.mem_cons_self with h1 | ⟨⟨e, h1⟩, h2⟩
    · simp only [h1, ha, this]; simp
    · rw [h2, show (Json.str []).content = [] from rfl] at ha
      simp only [h1, ha, this]; simp

/-! ### C50 -/

/-- Full statement of C50. -/
def C50_statement : Prop := ∀ (isFloat : Bytes → Bool) (d : Doc) (ms : List (Member Json)) (s : Scheme),
  (∀ v, isFloat v = true → (Json.lit v).wf) → d.wf → RootObj d ms → s.keys.Nodup → (∀ k ∈ s.keys, k ∈ ms.map Member.key) →
  ∃ (d' : Doc) (ms' : List (Member Json)), s.MutateJsonAbs isFloat d.render = .ok d'.render ∧ d'.wf ∧ RootObj d' ms' ∧
    ms'.map Member.key = s.keys ∧ ∀ m ∈ ms', ∃ u, d.get? [m.key] = some u ∧ Same u m.v

/-- The value of a root key, or the empty string. -/
def srcOf (d : Doc) (k : Text) : Json := (d.get? [k]).getD (.str [])

theorem member_value {d : Doc} {ms : List (Member Json)} (hd : d.wf) (hr : RootObj d ms) {k : Text} (hk : k ∈ ms.map Member.key) :
    d.get? [k] = some (srcOf d k) ∧ Get d.render [k] = .ok (srcOf d k).content ∧ (srcOf d k).wf ∧ strOk k := by
  obtain ⟨w, h1, h2⟩ := get_present hd hr hk
  have e : srcOf d k = w := by rw [srcOf, h1]; rfl
  rw [e]
  refine ⟨h1, h2, get_wf [k] (doc_wf.1 hd).2.1 h1, ?_⟩
  obtain ⟨g, hr⟩ := hr
  have hw := (doc_wf.1 hd).2.1
  rw [hr] at hw
  simp only [Json.wf, Bool.and_eq_true] at hw
  obtain ⟨m, hm, rfl⟩ := List.mem_map.1 hk
  exact (wfMembers_iff.1 hw.2 m hm).2.1

theorem bareMs_map {ks : List Text} {f : Text → Json} {m : Member Json} (h : m ∈ bareMs ks (ks.map f)) :
    m.key ∈ ks ∧ m.v = f m.key := by
  induction ks with
  | nil => simp [bareMs] at h
  | cons k ks ih =>
    rw [bareMs, List.map_cons, List.zipWith_cons_cons, List.mem_cons, ← bareMs] at h
    rcases h with rfl | h
    · exact ⟨List.mem_cons_self, rfl⟩
    · exact ⟨List.mem_cons_of_mem _ (ih h).1, (ih h).2⟩

/-- **C50 (partial)** `MutateJsonAbs` writes the object with exactly the scheme keys in
scheme order, every container as in the source and every scalar with the content it has in
the source.  Missing: an empty key (`C50_empty_key_fails`), a string that starts and ends
like a container (`C50_bracketed_fails`), and a container with brackets inside strings or
keys before the last scheme key (`C50_refused_fails`). -/
theorem C50_mutateAbs_partial (isFloat : Bytes → Bool) (hf : ∀ v, isFloat v = true → (Json.lit v).wf) (d : Doc)
    (ms : List (Member Json)) (s : Scheme) (hd : d.wf) (hr : RootObj d ms) (hn : s.keys.Nodup)
    (hp : ∀ k ∈ s.keys, k ∈ ms.map Member.key) (hne : [] ∉ s.keys)
    (hv : ∀ k ∈ s.keys, ∀ u, d.get? [k] = some u → Keeps u)
    (ht : ∀ k ∈ s.keys.dropLast, ∀ u, d.get? [k] = some u → Tame u) :
    ∃ (d' : Doc) (ms' : List (Member Json)), s.MutateJsonAbs isFloat d.render = .ok d'.render ∧ d'.wf ∧ RootObj d' ms' ∧
      ms'.map Member.key = s.keys ∧ (∀ m ∈ ms', ∃ u, d.get? [m.key] = some u ∧ Same u m.v) ∧
      s.MutateJson isFloat d.render = .ok (some d'.render) ∧
      ∀ k ∈ s.keys, Get d'.render [k] = Get d.render [k] := by
  have hm := fun k hk => member_value hd hr (hp k hk)
  have R : Ready (srcOf d) [] s.keys := ⟨hn, fun k hk => (hm k hk).2.2.2, fun k hk e => hne (e ▸ hk),
    fun k hk => ⟨(hm k hk).2.2.1, hv k hk _ (hm k hk).1⟩,
    fun k hk => ht k hk _ (hm k ((List.dropLast_sublist _).subset hk)).1⟩
  have hw : ∀ k ∈ s.keys, _ := fun k hk => written_ok hf (hm k hk).2.2.1 (hv k hk _ (hm k hk).1)
  have hkeys : (bareMs s.keys (s.keys.map fun k => written isFloat (srcOf d k))).map Member.key = s.keys := bareMs_keys (by simp)
  have hwf : (bareObj s.keys (s.keys.map fun k => written isFloat (srcOf d k))).wf := by
    refine bareObj_wf (fun k hk => (hm k hk).2.2.2) ?_
    intro v hv
    obtain ⟨k, hk, rfl⟩ := List.mem_map.1 hv
    exact (hw k hk).1
  refine ⟨_, _, mutateAbs_ok hf R fun k hk => (hm k hk).2.1, hwf, ⟨[], rfl⟩, hkeys, ?_,
    mutate_ok hf R fun k hk => .inl (hm k hk).2.1, ?_⟩
  · intro m h
    obtain ⟨h1, h2⟩ := bareMs_map h
    exact ⟨_, (hm _ h1).1, h2 ▸ (hw _ h1).2.2⟩
  · intro k hk
    obtain ⟨n, hlt, he⟩ := List.getElem_of_mem hk
    have := bareObj_get (ks := s.keys) (vs := s.keys.map fun k => written isFloat (srcOf d k)) (by simp) hn (n := n) (k := k)
      (v := written isFloat (srcOf d k)) (by rw [List.getElem?_eq_getElem hlt, he]) (by simp [List.getElem?_eq_getElem hlt, he])
    rw [List.nil_append, get_ok hwf (by simp) this, (hm k hk).2.1, (hw k hk).2.2.1]

/-- **C50** A scheme key that the source lacks: `MutateJsonAbs` gives its KeyNotFound error,
if the keys before it are copied. -/
theorem C50_missing_partial (isFloat : Bytes → Bool) (hf : ∀ v, isFloat v = true → (Json.lit v).wf) (d : Doc)
    (ms : List (Member Json)) (ks : List Text) (k : Text) (rest : List Text) (hd : d.wf) (hr : RootObj d ms) (hok : d.clear [] k)
    (hn : ks.Nodup) (hp : ∀ k ∈ ks, k ∈ ms.map Member.key) (hk : k ∉ ms.map Member.key) (hne : [] ∉ ks)
    (hv : ∀ k ∈ ks, ∀ u, d.get? [k] = some u → Keeps u) (ht : ∀ k ∈ ks.dropLast, ∀ u, d.get? [k] = some u → Tame u) :
    (MakeScheme (ks ++ k :: rest)).MutateJsonAbs isFloat d.render = .err (.keyNotFound k) := by
  have hm := fun k hk => member_value hd hr (hp k hk)
  have R : Ready (srcOf d) [] ks := ⟨hn, fun k hk => (hm k hk).2.2.2, fun k hk e => hne (e ▸ hk),
    fun k hk => ⟨(hm k hk).2.2.1, hv k hk _ (hm k hk).1⟩,
    fun k hk => ht k hk _ (hm k ((List.dropLast_sublist _).subset hk)).1⟩
  have hmiss : Get d.render [k] = .err (.keyNotFound k) := by
    obtain ⟨g, hr⟩ := hr
    have := C03_missing_key_partial d [] k [] g ms hd (by simp [Doc.get?, Json.get?, hr])
      (fun m hm e => hk (List.mem_map.2 ⟨m, hm, e⟩)) hok
    simpa using this
  have app : ∀ (l : List Text) (acc a : Bytes), mutateAbsLoop isFloat d.render l acc = .ok a →
      mutateAbsLoop isFloat d.render (l ++ k :: rest) acc = mutateAbsLoop isFloat d.render (k :: rest) a := by
    intro l
    induction l with
    | nil => intro acc a h; simp only [mutateAbsLoop, Out.ok.injEq] at h; rw [h]; rfl
    | cons x l ih =>
      intro acc a h
      rw [List.cons_append, mutateAbsLoop]
      rw [mutateAbsLoop] at h
      cases hg : GetString d.render [x] with
      | panic => rw [hg] at h; cases h
      | err e => rw [hg] at h; cases h
      | ok v =>
        rw [hg, Out.bind_ok] at h
        rw [Out.bind_ok]
        cases ha : AddKeyValueString isFloat acc x (formatType isFloat v) [] with
        | panic => rw [ha] at h; cases h
        | done a' e =>
          rw [ha] at h
          cases e with
          | some e => cases h
          | none => exact ih _ _ h
  show mutateAbsLoop isFloat d.render (ks ++ k :: rest) (bareObj [] []).render = _
  have hl := app _ _ _ (mutateAbs_ok hf R fun k hk => (hm k hk).2.1)
  rw [List.map_nil] at hl
  rw [hl, mutateAbsLoop, GetString, hmiss]
  rfl

/-- **C50** `MutateJson` does not need the keys: for one that the source lacks it writes the
empty string. -/
theorem C50_mutate_partial (isFloat : Bytes → Bool) (hf : ∀ v, isFloat v = true → (Json.lit v).wf) (d : Doc)
    (ms : List (Member Json)) (s : Scheme) (hd : d.wf) (hr : RootObj d ms) (hok : ∀ k ∈ s.keys, k ∉ ms.map Member.key → d.clear [] k) (hn : s.keys.Nodup)
    (hs : ∀ k ∈ s.keys, strOk k) (hne : [] ∉ s.keys) (hv : ∀ k ∈ s.keys, ∀ u, d.get? [k] = some u → Keeps u)
    (ht : ∀ k ∈ s.keys.dropLast, ∀ u, d.get? [k] = some u → Tame u) :
    ∃ (d' : Doc) (ms' : List (Member Json)), s.MutateJson isFloat d.render = .ok (some d'.render) ∧ d'.wf ∧ RootObj d' ms' ∧
      ms'.map Member.key = s.keys ∧ (∀ m ∈ ms', m.key ∈ ms.map Member.key → ∃ u, d.get? [m.key] = some u ∧ Same u m.v) ∧
      (∀ m ∈ ms', m.key ∉ ms.map Member.key → m.v = .str []) := by
  have hin := fun k (hk : k ∈ ms.map Member.key) => member_value hd hr hk
  have hout : ∀ k ∈ s.keys, k ∉ ms.map Member.key → d.get? [k] = none ∧ Get d.render [k] = .err (.keyNotFound k) := by
    intro k hks hk
    obtain ⟨g, hr⟩ := hr
    have := C03_missing_key_partial d [] k [] g ms hd (by simp [Doc.get?, Json.get?, hr])
      (fun m hm e => hk (List.mem_map.2 ⟨m, hm, e⟩)) (hok k hks hk)
    refine ⟨?_, by simpa using this⟩
    have : memberIdx ms k = none := by
      unfold memberIdx
      rw [List.findIdx?_eq_none_iff]
      intro m hm
      have : m.key ≠ k := fun e => hk (List.mem_map.2 ⟨m, hm, e⟩)
      simpa using this
    simp [Doc.get?, Json.get?, hr, Json.child?, this]
  have hsrc : ∀ k ∈ s.keys, k ∉ ms.map Member.key → srcOf d k = .str [] := fun k hks hk => by rw [srcOf, (hout k hks hk).1]; rfl
  have plain : Keeps (.str []) := by rintro raw h; cases h; unfold PlainText; decide
  have hok' : ∀ k ∈ s.keys, (srcOf d k).wf ∧ Keeps (srcOf d k) := by
    intro k hk
    by_cases h : k ∈ ms.map Member.key
    · exact ⟨(hin k h).2.2.1, hv k hk _ (hin k h).1⟩
    · rw [hsrc k hk h]; exact ⟨rfl, plain⟩
  have R : Ready (srcOf d) [] s.keys := by
    refine ⟨hn, hs, fun k hk e => hne (e ▸ hk), hok', ?_⟩
    intro k hk
    by_cases h : k ∈ ms.map Member.key
    · exact ht k hk _ (hin k h).1
    · rw [hsrc k ((List.dropLast_sublist _).subset hk) h]; simp [Tame, Json.isContainer]
  have hw : ∀ k ∈ s.keys, _ := fun k hk => written_ok hf (hok' k hk).1 (hok' k hk).2
  refine ⟨_, _, mutate_ok hf R ?_, ?_, ⟨[], rfl⟩, bareMs_keys (by simp), ?_, ?_⟩
  · intro k hk
    by_cases h : k ∈ ms.map Member.key
    · exact .inl (hin k h).2.1
    · exact .inr ⟨⟨_, (hout k hk h).2⟩, hsrc k hk h⟩
  · refine bareObj_wf hs ?_
    intro v hv
    obtain ⟨k, hk, rfl⟩ := List.mem_map.1 hv
    exact (hw k hk).1
  · intro m hm hk
    obtain ⟨h1, h2⟩ := bareMs_map hm
    exact ⟨_, (hin _ hk).1, h2 ▸ (hw _ h1).2.2⟩
  · intro m hm hk
    obtain ⟨h1, h2⟩ := bareMs_map hm
    rw [h2, hsrc _ h1 hk]
    rfl

/-- **C50 is false** for an empty key. -/
theorem C50_empty_key_fails :
    (MakeScheme [str ""]).MutateJsonAbs (fun _ => false) (str "{\"\":1}") = .err .nullKey := by decide +kernel

/-- **C50 is false** for a string that looks like a container: it is written without quotes. -/
theorem C50_bracketed_fails :
    (MakeScheme [str "a"]).MutateJsonAbs (fun _ => false) (str "{\"a\":\"[x]\"}") = .ok (str "{\"a\":[x]}") := by decide +kernel

/-- **C50 is false** for a container with brackets in its strings before the last scheme key:
the next key is taken for one that exists. -/
theorem C50_refused_fails :
    (MakeScheme [str "a", str ","]).MutateJsonAbs (fun _ => false) (str "{\"a\":{\"b\":\"}\",\":5,\":2},\",\":1}") =
      .err (.keyAlreadyExist (str ",")) := by decide +kernel

theorem C50_fails : ¬ C50_statement := by
  intro h
  obtain ⟨d', ms', h1, -⟩ := h (fun _ => false) ⟨[], .obj [] [bareM [] (.lit [49])], []⟩ _ (MakeScheme [[]]) (by simp) (by decide +kernel)
    ⟨[], rfl⟩ (by decide) (by decide)
  have e : (MakeScheme [[]]).MutateJsonAbs (fun _ => false) (⟨[], .obj [] [bareM [] (.lit [49])], []⟩ : Doc).render = .err .nullKey := by
    decide +kernel
  rw [e] at h1
  cases h1

example : Sample.flat.wf ∧ RootObj Sample.flat Sample.flatMs ∧ (MakeScheme [str "b", str "a"]).keys.Nodup ∧
    (∀ k ∈ (MakeScheme [str "b", str "a"]).keys, k ∈ Sample.flatMs.map Member.key) ∧ [] ∉ (MakeScheme [str "b", str "a"]).keys ∧
    (∀ k ∈ (MakeScheme [str "b", str "a"]).keys, ∀ u, Sample.flat.get? [k] = some u → Keeps u) ∧
    (∀ k ∈ (MakeScheme [str "b", str "a"]).keys.dropLast, ∀ u, Sample.flat.get? [k] = some u → Tame u) ∧
    (MakeScheme [str "b", str "a"]).MutateJsonAbs (fun _ => false) Sample.flat.render = .ok (str "{\"b\":[1,{}],\"a\":\"x\"}") ∧
    (MakeScheme [str "b", str "z", str "a"]).MutateJsonAbs (fun _ => false) Sample.flat.render = .err (.keyNotFound (str "z")) ∧
    (MakeScheme [str "b", str "z", str "a"]).MutateJson (fun _ => false) Sample.flat.render =
      .ok (some (str "{\"b\":[1,{}],\"z\":\"\",\"a\":\"x\"}")) := by
  have ga : Sample.flat.get? [str "a"] = some (.str (str "x")) := by decide +kernel
  have gb : Sample.flat.get? [str "b"] = some (.arr [] [Sample.el (.lit (str "1")), Sample.el (.obj [] [])]) := by decide +kernel
  refine ⟨by decide +kernel, ⟨[], rfl⟩, by decide +kernel, by decide +kernel, by decide +kernel, ?_, ?_, by decide +kernel,
    by decide +kernel, by decide +kernel⟩
  · intro k hk u hu raw e
    simp only [MakeScheme, List.mem_cons, List.not_mem_nil, or_false] at hk
    rcases hk with rfl | rfl
    · rw [gb, e] at hu; cases hu
    · rw [ga, e] at hu
      cases hu
      unfold PlainText; decide +kernel
  · intro k hk u hu _
    simp only [MakeScheme, List.dropLast, List.mem_cons, List.not_mem_nil, or_false] at hk
    subst hk
    rw [gb] at hu
    cases hu
    decide +kernel

end Jin
