import Verif.Proof.Iterate
import Verif.Props.Sample
/-!
# Props.Iterate — C30 to C33: iterating arrays and objects, keys and values

`visit cb xs u` is what the documentation of the package promises: call `cb` on each
item in order, until it asks to stop or returns an error, and return that error.
-/

namespace Jin
open Spec

/-- A callback that keeps what it sees and returns an error on the text `stop`. -/
def Sample.collect (stop : Bytes) (u : List Bytes) (v : Bytes) : Cb (List Bytes) :=
  .ret (u ++ [v]) true (if v = stop then some .empty else none)

/-- The same with keys; it never stops. -/
def Sample.collectKV (stop : Bytes) (u : List (Bytes × Bytes)) (k v : Bytes) : Cb (List (Bytes × Bytes)) :=
  .ret (u ++ [(k, v)]) true (if v = stop then some .empty else none)

/-! ### C30 -/

/-- **C30** `IterateArray` calls the callback on the text of each element, in order, until
it stops or fails, and returns its error. -/
theorem C30_iterateArray {σ : Type} {d : Doc} {path : List Text} {g : Text} {es : List (Elem Json)} (hd : d.wf)
    (h : d.get? path = some (.arr g es)) (he : es ≠ []) (cb : σ → Bytes → Cb σ) (u : σ) :
    IterateArray d.render cb path u = visit cb (es.map fun e => e.v.content) u :=
  iterateArray_ok hd h he u

example : ∃ g es, Sample.doc.get? Sample.toArr = some (.arr g es) ∧ es ≠ [] ∧
    es.map (fun e => e.v.content) = [str "10", str "x]\\\\", str "{\"k\":null}", str "[]"] :=
  ⟨[], _, Sample.get_arr, by decide, by decide +kernel⟩
example : IterateArray Sample.doc.render (Sample.collect (str "{\"k\":null}")) Sample.toArr [] =
    .done [str "10", str "x]\\\\", str "{\"k\":null}"] (some .empty) := by decide +kernel

/-- Without errors and stops, a callback that collects the elements gets all of them. -/
theorem C30_collect {d : Doc} {path : List Text} {g : Text} {es : List (Elem Json)} (hd : d.wf)
    (h : d.get? path = some (.arr g es)) (he : es ≠ []) :
    IterateArray d.render (fun (u : List Bytes) v => .ret (u ++ [v]) true none) path [] =
      .done (es.map fun e => e.v.content) none := by
  rw [C30_iterateArray hd h he]
  have : ∀ (xs u : List Bytes), visit (fun (u : List Bytes) v => Cb.ret (u ++ [v]) true none) xs u = .done (u ++ xs) none := by
    intro xs
    induction xs with
    | nil => intro u; simp [visit]
    | cons x xs ih => intro u; simp [visit, ih]
  simpa using this (es.map fun e => e.v.content) []

/-- On another value the error is `ArrayExpected` (the text has at least three bytes). -/
theorem C30_other {σ : Type} {d : Doc} {path : List Text} {w : Json} (hd : d.wf) (h : d.get? path = some w)
    (hlen : 2 < d.render.length) (hk : w.kind ≠ .arr) (cb : σ → Bytes → Cb σ) (u : σ) :
    IterateArray d.render cb path u = .done u (some .arrayExpected) :=
  iterateArray_other hd h hlen (fun g es e => hk (by rw [e]; rfl)) u

example : Sample.doc.get? Sample.toTrue = some (.lit bTrue) ∧ 2 < Sample.doc.render.length ∧
    (Json.lit bTrue).kind ≠ .arr := ⟨by decide +kernel, by decide +kernel, by decide⟩

/-! ### C31 -/

/-- The full statement of C31: like `IterateArray`, for keys and values. -/
def C31_statement : Prop :=
  ∀ (σ : Type) (d : Doc) (path : List Text) (g : Text) (ms : List (Member Json)) (cb : σ → Bytes → Bytes → Cb σ) (u : σ),
    d.wf → d.get? path = some (.obj g ms) → ms ≠ [] →
    IterateKeyValue d.render cb path u = visit (fun u p => cb u p.1 p.2) (ms.map fun m => (m.key, m.v.content)) u

/-- `{"a":1}` -/
def Sample.one : Doc := ⟨[], .obj [] [mem (s "a") (.lit (s "1"))], []⟩
/-- `{"a":1 ,"b":2}` -/
def Sample.loose : Doc := ⟨[], .obj [] [⟨[], s "a", [], [], .lit (s "1"), s " "⟩, mem (s "b") (.lit (s "2"))], []⟩

/-- **C31 fails**: the error the callback returns for the last member is dropped. -/
theorem C31_error_fails : ¬ C31_statement := by
  intro h
  have := h _ Sample.one [] [] [Sample.mem (str "a") (.lit (str "1"))] (Sample.collectKV (str "1")) []
    (by decide +kernel) (by decide +kernel) (by decide)
  revert this
  decide +kernel

/-- **C31 fails**: the whitespace after a one-byte value is handed to the callback. -/
theorem C31_text_fails : IterateKeyValue Sample.loose.render (Sample.collectKV []) [] [] =
    .done [(str "a", str "1 "), (str "b", str "2")] none := by decide +kernel

/-- **C31, exactly**: the callback is called on each key and value text in order until it
stops or fails, its error is returned, except that (1) the answer for the last member is
ignored and (2) a one-byte value before a comma is seen together with the whitespace
after it. -/
theorem C31_iterateKV_partial {σ : Type} {d : Doc} {path : List Text} {g : Text} {ms : List (Member Json)} (hd : d.wf)
    (h : d.get? path = some (.obj g ms)) (hm : ms ≠ []) (cb : σ → Bytes → Bytes → Cb σ) (u : σ) :
    IterateKeyValue d.render cb path u = visitLast cb (ikSeen ms) u :=
  iterateKV_ok hd h hm u

/-- The members whose one-byte value is followed by whitespace. -/
def Spec.Member.loose (m : Member Json) : Bool := m.v.render.length == 1 && !m.r.isEmpty

theorem ikSeen_tight : ∀ {ms : List (Member Json)}, wfMembers ms → (∀ m ∈ ms, m.loose = false) →
    ikSeen ms = ms.map fun m => (m.key, m.v.content)
  | [], _, _ => rfl
  | m :: ms, hw, h => by
    rw [wfMembers_cons] at hw
    rw [ikSeen, List.map_cons, ikSeen_tight hw.2.2.2.2.2.2 (fun x hx => h x (List.mem_cons_of_mem _ hx))]
    congr 2
    split
    · rename_i h1
      have := h m List.mem_cons_self
      rw [Member.loose, h1.1, beq_self_eq_true, Bool.true_and, Bool.not_eq_false', List.isEmpty_iff] at this
      rw [this, List.append_nil, (one_byte hw.2.2.2.2.1 h1.1).1]
    · rfl

/-- **C31** for callbacks that return no error and members whose one-byte values are
followed directly by a comma or bracket. -/
theorem C31_no_error_partial {σ : Type} {d : Doc} {path : List Text} {g : Text} {ms : List (Member Json)} (hd : d.wf)
    (h : d.get? path = some (.obj g ms)) (hm : ms ≠ []) (hl : ∀ m ∈ ms, m.loose = false)
    (cb : σ → Bytes → Bytes → Cb σ) (hcb : ∀ u k v u' b e, cb u k v = .ret u' b e → e = none) (u : σ) :
    IterateKeyValue d.render cb path u = visit (fun u p => cb u p.1 p.2) (ms.map fun m => (m.key, m.v.content)) u := by
  obtain ⟨_, -, -, hw, -⟩ := valueStart_ok hd h
  rw [C31_iterateKV_partial hd h hm, ikSeen_tight (wf_obj.1 hw).2 hl]
  clear h hm hl hw
  generalize ms.map (fun m => (m.key, m.v.content)) = xs
  induction xs generalizing u with
  | nil => rfl
  | cons x xs ih =>
    rw [visitLast, visit]
    cases hc : cb u x.1 x.2 with
    | panic => rfl
    | ret u' b e =>
      have := hcb _ _ _ _ _ _ hc
      subst this
      simp only [Option.isSome_none, Bool.false_eq_true, if_false, ih]
      cases xs with
      | nil => cases b <;> rfl
      | cons y ys => rfl

example : ∃ g ms, Sample.doc.get? Sample.toObj = some (.obj g ms) ∧ ms ≠ [] ∧ (∀ m ∈ ms, m.loose = false) ∧
    (∀ (u : Nat) (k v : Bytes) u' b e, (fun n _ _ => Cb.ret (n + 1) (n < 3) none : Nat → Bytes → Bytes → Cb Nat) u k v = .ret u' b e →
      e = none) :=
  ⟨[], _, Sample.get_obj, by decide, by decide +kernel, by rintro _ _ _ _ _ _ ⟨⟩; rfl⟩

/-- A callback that collects the members gets all of them. -/
theorem C31_collect_partial {d : Doc} {path : List Text} {g : Text} {ms : List (Member Json)} (hd : d.wf)
    (h : d.get? path = some (.obj g ms)) (hm : ms ≠ []) (hl : ∀ m ∈ ms, m.loose = false) :
    IterateKeyValue d.render (fun (u : List (Bytes × Bytes)) k v => .ret (u ++ [(k, v)]) true none) path [] =
      .done (ms.map fun m => (m.key, m.v.content)) none := by
  rw [C31_no_error_partial hd h hm hl _ (by rintro _ _ _ _ _ _ ⟨⟩; rfl)]
  have : ∀ (xs u : List (Bytes × Bytes)),
      visit (fun (u : List (Bytes × Bytes)) p => Cb.ret (u ++ [(p.1, p.2)]) true none) xs u = .done (u ++ xs) none := by
    intro xs
    induction xs with
    | nil => intro u; simp [visit]
    | cons x xs ih => intro u; simp [visit, ih]
  simpa using this _ []

/-- The error of every member but the last is returned, and nothing after it is visited. -/
theorem C31_error_returned {σ : Type} {d : Doc} {path : List Text} {g : Text} {m : Member Json} {ms : List (Member Json)} (hd : d.wf)
    (h : d.get? path = some (.obj g (m :: ms))) (hm : ms ≠ []) (hl : m.loose = false)
    (cb : σ → Bytes → Bytes → Cb σ) (u u' : σ) (b : Bool) (e : Err) (hcb : cb u m.key m.v.content = .ret u' b (some e)) :
    IterateKeyValue d.render cb path u = .done u' (some e) := by
  obtain ⟨_, -, -, hw, -⟩ := valueStart_ok hd h
  have hw := (wf_obj.1 hw).2
  rw [wfMembers_cons] at hw
  rw [C31_iterateKV_partial hd h (by simp), ikSeen, visitLast]
  have : (if m.v.render.length = 1 ∧ ms ≠ [] then m.v.render ++ m.r else m.v.content) = m.v.content := by
    split
    · rename_i h1
      rw [Member.loose, h1.1, beq_self_eq_true, Bool.true_and, Bool.not_eq_false', List.isEmpty_iff] at hl
      rw [hl, List.append_nil, (one_byte hw.2.2.2.2.1 h1.1).1]
    · rfl
  simp only [this, hcb]
  cases ms with
  | nil => exact absurd rfl hm
  | cons y ys => rfl

example : ∃ g m ms, Sample.doc.get? Sample.toObj = some (.obj g (m :: ms)) ∧ ms ≠ [] ∧ m.loose = false ∧
    ∃ u', Sample.collectKV (str "{\"q\":true }") [] m.key m.v.content = .ret u' true (some .empty) :=
  ⟨[], _, _, Sample.get_obj, by decide, by decide +kernel, [(str "p", str "{\"q\":true }")], by
    simp only [Sample.collectKV]
    rw [if_pos (by decide +kernel)]
    congr 1
    decide +kernel⟩

/-- On another value the error is `ObjectExpected`. -/
theorem C31_other {σ : Type} {d : Doc} {path : List Text} {w : Json} (hd : d.wf) (h : d.get? path = some w)
    (hk : w.kind ≠ .obj) (cb : σ → Bytes → Bytes → Cb σ) (u : σ) :
    IterateKeyValue d.render cb path u = .done u (some .objectExpected) :=
  iterateKV_other hd h (fun g es e => hk (by rw [e]; rfl)) u

example : Sample.doc.get? Sample.toTen = some (.lit (str "10")) ∧ (Json.lit (str "10")).kind ≠ .obj :=
  ⟨by decide +kernel, by decide⟩

/-! ### C32 -/

/-- **C32** `GetKeys` lists the keys in order (the text is not exactly `{}`). -/
theorem C32_getKeys_partial {d : Doc} {path : List Text} {g : Text} {ms : List (Member Json)} (hd : d.wf)
    (h : d.get? path = some (.obj g ms)) (hne : d.render ≠ str "{}") : GetKeys d.render path = .ok (ms.map Member.key) := by
  have hb : str "{}" = bObj := by decide +kernel
  rw [hb] at hne
  cases ms with
  | cons m ms =>
    obtain ⟨s, h1, h2, -⟩ := kvRun_ok (fun _ => keys_like) hd h (by simp)
    rw [GetKeys, h1, Out.map, h2, if_pos rfl]
  | nil =>
    obtain ⟨i, hseg, h1⟩ := kvRun_empty (fun _ => keys_like) hd h hne
    rw [seg_cons, seg_append, seg_cons] at hseg
    have : keysBody d.render (i + 1 + g.length) ⟨i, 0, 0, false, 1, [], []⟩ = .brk ⟨i, 0, 0, false, 1, [], []⟩ := by
      rw [keysBody, hseg.2.2.1]; rfl
    rw [GetKeys, h1, this]; rfl

example : ∃ g ms, Sample.doc.get? [] = some (.obj g ms) ∧ Sample.doc.render ≠ str "{}" ∧
    ms.map Member.key = [str "a", str "b\\\"]", str "a", str "o"] :=
  ⟨[], _, Sample.get_root, by decide +kernel, by decide +kernel⟩

/-- **C32 fails** on the text `{}` alone: its keys are reported as an error. -/
theorem C32_empty_fails : (⟨[], .obj [] [], []⟩ : Doc).wf ∧ (⟨[], .obj [] [], []⟩ : Doc).get? [] = some (.obj [] []) ∧
    GetKeys (⟨[], .obj [] [], []⟩ : Doc).render [] = .err .empty :=
  ⟨by decide +kernel, by decide +kernel, by decide +kernel⟩

/-- **C32**: on any other value the error is `ObjectExpected`. -/
theorem C32_other {d : Doc} {path : List Text} {w : Json} (hd : d.wf) (h : d.get? path = some w) (hk : w.kind ≠ .obj) :
    GetKeys d.render path = .err .objectExpected := by
  rw [GetKeys, kvRun_other hd h (fun g es e => hk (by rw [e]; rfl))]; rfl

example : Sample.doc.get? Sample.toStr = some (.str (str "x]\\\\")) ∧ (Json.str (str "x]\\\\")).kind ≠ .obj :=
  ⟨by decide +kernel, by decide⟩

/-! ### C33 -/

/-- **C33, exactly**: `GetValues` lists the value texts in order; a one-byte value directly
after its colon is given with the byte of whitespace after it, if there is one. -/
theorem C33_getValues_exact_partial {d : Doc} {path : List Text} {g : Text} {ms : List (Member Json)} (hd : d.wf)
    (h : d.get? path = some (.obj g ms)) (hm : ms ≠ []) :
    GetValues d.render path = .ok (ms.map fun m => cvsSeen m.l2 m.v m.r) := by
  obtain ⟨s, h1, -, h2⟩ := kvRun_ok (fun _ => values_like) hd h hm
  rw [GetValues, h1, Out.map, h2, if_pos rfl]

/-- **C33, exactly**, for `GetKeysValues`. -/
theorem C33_getKeysValues_exact_partial {d : Doc} {path : List Text} {g : Text} {ms : List (Member Json)} (hd : d.wf)
    (h : d.get? path = some (.obj g ms)) (hm : ms ≠ []) :
    GetKeysValues d.render path = .ok (ms.map Member.key, ms.map fun m => cvsSeen m.l2 m.v m.r) := by
  obtain ⟨s, h1, h2, h3⟩ := kvRun_ok (fun _ => keysValues_like) hd h hm
  rw [GetKeysValues, h1, Out.map, h2, h3, if_pos rfl, if_pos rfl]

/-- `GetKeysValues` agrees with `GetKeys` and `GetValues`, and its lists have equal lengths. -/
theorem C33_agree {d : Doc} {path : List Text} {g : Text} {ms : List (Member Json)} (hd : d.wf)
    (h : d.get? path = some (.obj g ms)) (hm : ms ≠ []) :
    ∃ ks vs, GetKeysValues d.render path = .ok (ks, vs) ∧ GetKeys d.render path = .ok ks ∧ GetValues d.render path = .ok vs ∧
      ks.length = vs.length := by
  refine ⟨_, _, C33_getKeysValues_exact_partial hd h hm, ?_, C33_getValues_exact_partial hd h hm, by simp⟩
  obtain ⟨s, h1, h2, -⟩ := kvRun_ok (fun _ => keys_like) hd h hm
  rw [GetKeys, h1, Out.map, h2, if_pos rfl]

theorem cvsSeen_tight {ms : List (Member Json)} (hw : wfMembers ms) (h : ∀ m ∈ ms, m.loose = false) :
    (ms.map fun m => cvsSeen m.l2 m.v m.r) = ms.map fun m => m.v.content := by
  induction ms with
  | nil => rfl
  | cons m ms ih =>
    rw [wfMembers_cons] at hw
    rw [List.map_cons, List.map_cons, ih hw.2.2.2.2.2.2 (fun x hx => h x (List.mem_cons_of_mem _ hx)), cvsSeen_snug hw.2.2.2.2.1]
    intro _ h1
    have := h m List.mem_cons_self
    rwa [Member.loose, h1, beq_self_eq_true, Bool.true_and, Bool.not_eq_false', List.isEmpty_iff] at this

/-- **C33** when no one-byte value is followed by whitespace. -/
theorem C33_getValues_partial {d : Doc} {path : List Text} {g : Text} {ms : List (Member Json)} (hd : d.wf)
    (h : d.get? path = some (.obj g ms)) (hm : ms ≠ []) (hl : ∀ m ∈ ms, m.loose = false) :
    GetValues d.render path = .ok (ms.map fun m => m.v.content) ∧
      GetKeysValues d.render path = .ok (ms.map Member.key, ms.map fun m => m.v.content) := by
  obtain ⟨_, -, -, hw, -⟩ := valueStart_ok hd h
  rw [C33_getValues_exact_partial hd h hm, C33_getKeysValues_exact_partial hd h hm, cvsSeen_tight (wf_obj.1 hw).2 hl]
  exact ⟨rfl, rfl⟩

example : ∃ g ms, Sample.doc.get? Sample.toObj = some (.obj g ms) ∧ ms ≠ [] ∧ (∀ m ∈ ms, m.loose = false) ∧
    ms.map (fun m => m.v.content) = [str "{\"q\":true }", str "-1.5e3"] :=
  ⟨[], _, Sample.get_obj, by decide, by decide +kernel, by decide +kernel⟩

/-- **C33 fails**: the value `1` of `{"a":1 ,"b":2}` is given as `1␣`. -/
theorem C33_fails : ¬ ∀ (d : Doc) (path : List Text) (g : Text) (ms : List (Member Json)), d.wf → d.get? path = some (.obj g ms) → ms ≠ [] →
    GetValues d.render path = .ok (ms.map fun m => m.v.content) := by
  intro h
  have := h Sample.loose [] [] [⟨[], str "a", [], [], .lit (str "1"), str " "⟩, Sample.mem (str "b") (.lit (str "2"))] (by decide +kernel) (by decide +kernel) (by decide)
  revert this
  decide +kernel

end Jin
