import Verif.Proof.SkipIter
/-!
# Proof.Iterate — the loops that visit the entries of a container
-/

namespace Jin
open Spec

/-- Where a value starts. -/
theorem valueStart_ok {d : Doc} {path : List Text} {w : Json} (hd : d.wf) (h : d.get? path = some w) :
    ∃ i, valueStart d.render path = .ok i ∧ Seg d.render i w.render ∧ w.wf ∧
      (path.length == 0) = path.isEmpty ∧
      (path = [] → skipSpaces d.render 0 = some i) ∧ (path ≠ [] → (core d.render true path).map Loc.start = .ok i) := by
  obtain ⟨f, hf, rfl, hseg, hw⟩ := find_any hd h
  by_cases hp : path = []
  · subst hp
    simp only [findAt, Option.some.injEq] at hf
    subst hf
    simp only [Nat.add_zero] at hseg hw ⊢
    have h0 := seg_self d.render
    conv at h0 => arg 3; rw [Doc.render]
    rw [seg_append] at h0
    have := skipSpaces_value (i := 0) h0.1 (doc_wf.1 hd).1 hw (by simpa using hseg)
    rw [Nat.zero_add] at this
    exact ⟨_, by simp [valueStart, this], hseg, hw, rfl, fun _ => this, fun h => absurd rfl h⟩
  · have hlen : (path.length == 0) = false := by simpa using hp
    refine ⟨d.lead.length + f.pos, ?_, hseg, hw, by cases path <;> simp, fun h => absurd h hp, fun _ => ?_⟩
    · unfold valueStart
      simp only [hlen, Bool.false_eq_true, if_false]
      rw [core_found hd hp hf]; rfl
    · rw [core_found hd hp hf]; rfl

section
variable {σ ρ : Type} {json : Bytes} {body : Nat → σ → Ctl σ ρ} {F : Nat → σ → Prop}

/-- Pass over a value with the whitespace around it. -/
theorem Skips.padded (H : Skips json body F) {l r : Bytes} {v : Json} (hl : Ws l) (hv : v.wf) (hr : Ws r) {i d s}
    (h : Seg json i (l ++ (v.render ++ r))) (hp : PrevOk json i) (hs : F d s) :
    ∃ s', Run json body i s (i + (l ++ (v.render ++ r)).length) s' ∧ F d s' := by
  rw [seg_append, seg_append] at h
  obtain ⟨s1, r1, f1⟩ := H.ws hl h.1 hs
  obtain ⟨s2, r2, f2⟩ := H.value v hv h.2.1 (prevOk_ws h.1 hl hp) f1
  obtain ⟨s3, r3, f3⟩ := H.ws hr h.2.2 f2
  exact ⟨s3, ((r1.trans r2).trans r3).to (by simp; omega), f3⟩
end

theorem slice_seg_len {json s : Bytes} {i : Nat} {c : UInt8} (h : Seg json i s) (hc : json[i + s.length]? = some c) :
    slice json i ((i + s.length : Nat) : Int) = .ok s :=
  slice_seg h rfl (Nat.le_of_lt (lt_of_getElem? hc))

/-! ### Arrays -/

/-- Call `cb` on each text in order until it says stop or fails. -/
def visit {σ α : Type} (cb : σ → α → Cb σ) : List α → σ → IterRes σ
  | [], u => .done u none
  | x :: xs, u =>
    match cb u x with
    | .panic => .panic
    | .ret u keepGoing err =>
      if err.isSome then .done u err
      else if keepGoing then visit cb xs u
      else .done u none

section ia
variable {σ : Type} {json : Bytes} {cb : σ → Bytes → Cb σ}

theorem ia_elems : ∀ (es : List (Elem Json)) {i : Nat} {u : σ}, es ≠ [] → wfElems es → Seg json i (renderElems es ++ [93]) →
    PrevOk json i → forUp json.length (iaBody json cb) i ⟨i, false, 0, u⟩ = .ret (visit cb (es.map fun e => e.v.content) u)
  | [], _, _, h, _, _, _ => absurd rfl h
  | e :: es, i, u, _, hw, hseg, hp => by
    rw [wfElems_cons] at hw
    obtain ⟨w1, w2, w3, w4⟩ := hw
    have hr : renderElems (e :: es) ++ [93] = (e.l ++ (e.v.render ++ e.r)) ++ (if es.isEmpty then [93] else 44 :: (renderElems es ++ [93])) := by
      rw [renderElems_cons]
      by_cases he : es.isEmpty <;> simp [he]
    rw [hr, seg_append] at hseg
    obtain ⟨s', hrun, hs'⟩ := (ia_skips (json := json) (cb := cb) i u).padded w1 w2 w3 (d := 0) hseg.1 hp rfl
    have hrun : Run json (iaBody json cb) i ⟨i, false, 0, u⟩ _ s' := hrun
    subst hs'
    rw [show forUp json.length (iaBody json cb) i ⟨i, false, 0, u⟩ = _ from hrun]
    have hclean := cleanValue_ok w1 w2 w3
    by_cases he : es.isEmpty
    · rw [List.isEmpty_iff] at he
      subst he
      have h2 := hseg.2
      simp only [List.isEmpty_nil, if_true] at h2
      rw [seg_cons] at h2
      have hsl := slice_seg_len hseg.1 h2.1
      refine forUp_ret (lt_of_getElem? h2.1) ?_
      simp only [iaBody, h2.1, isJSONChar]
      simp only [hsl, Out.bind_ok, hclean]
      cases hcb : cb u e.v.content with
      | panic => simp [visit, hcb]
      | ret u' b er => cases er <;> cases b <;> simp [visit, hcb]
    · have h2 := hseg.2
      simp only [he, Bool.false_eq_true, if_false] at h2
      rw [seg_cons] at h2
      have hsl := slice_seg_len hseg.1 h2.1
      have hb : iaBody json cb (i + (e.l ++ (e.v.render ++ e.r)).length) ⟨i, false, ((0 : Nat) : Int), u⟩ =
          match cb u e.v.content with
          | .ret u _ (some e) => .ret (.done u (some e))
          | .ret u false none => .ret (.done u none)
          | .ret u true none => .next ⟨i + (e.l ++ (e.v.render ++ e.r)).length + 1, false, ((0 : Nat) : Int), u⟩
          | .panic => .ret .panic := by
        simp only [iaBody, h2.1, isJSONChar]
        simp only [hsl, Out.bind_ok, hclean]
        simp
        rfl
      rw [List.map_cons, visit]
      cases hcb : cb u e.v.content with
      | panic => rw [hcb] at hb; rw [forUp_ret (lt_of_getElem? h2.1) hb]
      | ret u' b er =>
        rw [hcb] at hb
        cases er with
        | some er => rw [forUp_ret (lt_of_getElem? h2.1) hb]; rfl
        | none =>
          cases b with
          | false => rw [forUp_ret (lt_of_getElem? h2.1) hb]; rfl
          | true =>
            rw [forUp_next (lt_of_getElem? h2.1) hb]
            exact ia_elems es (by simpa using he) w4 h2.2 (prevOk_succ h2.1 (by decide))

theorem two_lt_of_arr {i : Nat} {g : Text} {es : List (Elem Json)} (hw : (Json.arr g es).wf) (he : es ≠ [])
    (h : Seg json i (Json.arr g es).render) : 2 < json.length := by
  have := h.len (render_ne_nil hw)
  rw [render_arr] at this
  cases es with
  | nil => exact absurd rfl he
  | cons e es =>
    rw [wf_arr, wfElems_cons] at hw
    have : 0 < e.v.render.length := List.length_pos_iff.2 (render_ne_nil hw.2.2.1)
    simp [renderElems_cons] at *
    omega

theorem iterateArray_start {d : Doc} {path : List Text} {i : Nat} (hlen : 2 < d.render.length) {c : UInt8}
    (hc : d.render[i]? = some c)
    (h4 : path = [] → skipSpaces d.render 0 = some i) (h5 : path ≠ [] → (core d.render true path).map Loc.start = .ok i) (u : σ) :
    IterateArray d.render cb path u = if c != 91 then .done u (some .arrayExpected)
        else
          match forUp d.render.length (iaBody d.render cb) (i + 1) ⟨i + 1, false, 0, u⟩ with
          | .ret r => r
          | .done s => .done s.user (some (.badJSON s.start)) := by
  unfold IterateArray
  rw [if_neg (by omega), if_neg (by simp; omega)]
  by_cases hp : path = []
  · subst hp
    simp only [List.length_nil, beq_self_eq_true, if_true, h4 rfl, hc]
    rfl
  · have hlen : (path.length == 0) = false := by simpa using hp
    simp only [hlen, Bool.false_eq_true, if_false, h5 hp, hc]
    rfl

theorem iterateArray_ok {d : Doc} {path : List Text} {g : Text} {es : List (Elem Json)} (hd : d.wf)
    (h : d.get? path = some (.arr g es)) (he : es ≠ []) (u : σ) :
    IterateArray d.render cb path u = visit cb (es.map fun e => e.v.content) u := by
  obtain ⟨i, -, hseg, hw, -, h4, h5⟩ := valueStart_ok hd h
  have hlen := two_lt_of_arr hw he hseg
  rw [render_arr, seg_cons] at hseg
  rw [iterateArray_start hlen hseg.1 h4 h5]
  rw [wf_arr] at hw
  have hb : es.isEmpty = false := by simpa using he
  simp only [hb, Bool.false_eq_true, if_false] at hseg
  rw [ia_elems es he hw.2 hseg.2 (prevOk_succ hseg.1 (by decide))]
  simp

/-- On a value that is not an array. -/
theorem iterateArray_other {d : Doc} {path : List Text} {w : Json} (hd : d.wf) (h : d.get? path = some w)
    (hlen : 2 < d.render.length) (hk : ∀ g es, w ≠ .arr g es) (u : σ) :
    IterateArray d.render cb path u = .done u (some .arrayExpected) := by
  obtain ⟨i, -, hseg, hw, -, h4, h5⟩ := valueStart_ok hd h
  rw [iterateArray_start hlen (hseg.first hw) h4 h5, if_pos]
  cases w with
  | arr g es => exact absurd rfl (hk g es)
  | lit t => simpa using (tokByte_ne (first_lit hw)).2.2.2.2.2.1
  | str t => rw [first_str]; decide
  | obj g ms => rw [first_obj]; decide

end ia

/-! ### Objects -/

/-- A body that does nothing on whitespace passes over it. -/
theorem run_ws {σ ρ : Type} {json : Bytes} {body : Nat → σ → Ctl σ ρ} {s : σ}
    (h : ∀ {i c}, json[i]? = some c → isWs c → body i s = .next s) {w : Bytes} :
    ∀ {i : Nat}, Seg json i w → Ws w → Run json body i s (i + w.length) s := by
  induction w with
  | nil => intro i _ _; exact Run.refl
  | cons c w ih =>
    intro i hseg hw
    rw [seg_cons] at hseg
    rw [ws_cons, Bool.and_eq_true] at hw
    exact ((Run.next hseg.1 (h hseg.1 hw.1)).trans (ih hseg.2 hw.2)).to (by simp; omega)

/-- The text of a member, cut where the loops act. -/
theorem renderMembers_cut (m : Member Json) (ms : List (Member Json)) :
    renderMembers (m :: ms) ++ [125] = m.l ++ ((34 :: (m.key ++ [34])) ++ (m.m ++ (58 :: ((m.l2 ++ (m.v.render ++ m.r)) ++
      (if ms.isEmpty then [125] else 44 :: (renderMembers ms ++ [125])))))) := by
  rw [renderMembers_cons]
  by_cases he : ms.isEmpty <;> simp [he]

/-- The key between its quotes. -/
theorem slice_key {json raw : Bytes} {i : Nat} (h : Seg json i (34 :: (raw ++ [34]))) :
    slice json ((i : Int) + 1) ((i + (raw.length + 1) : Nat) : Int) = .ok raw := by
  have hl := h.len (by simp)
  rw [seg_cons, seg_append] at h
  have := slice_seg h.2.1 (j := i + (raw.length + 1)) (by omega) (by simp at hl; omega)
  exact_mod_cast this

section kv
variable {json : Bytes} {body : Nat → KvSt → Ctl KvSt Unit} {wantK wantV : Bool}

theorem KvLike.ws (H : KvLike json body wantK wantV) {s : KvSt} {w : Bytes} {i : Nat} (h : Seg json i w) (hw : Ws w) :
    Run json body i s (i + w.length) s :=
  run_ws (fun hc h => H.quiet hc (isJSONChar_tok (.inr h))) h hw

theorem KvLike.members (H : KvLike json body wantK wantV) : ∀ (ms : List (Member Json)) {i : Nat} {a : KvSt}, ms ≠ [] → wfMembers ms →
    Seg json i (renderMembers ms ++ [125]) → PrevOk json i → a.inQuote = false → a.level = 1 →
    ∃ s, forUp json.length body i a = .done s ∧
      s.keys = a.keys ++ (if wantK then ms.map Member.key else []) ∧
      s.values = a.values ++ (if wantV then ms.map fun m => cvsSeen m.l2 m.v m.r else [])
  | [], _, _, h, _, _, _, _, _ => absurd rfl h
  | m :: ms, i, ⟨st, ks0, ke0, q, lv, K, V⟩, _, hw, hseg, hp, hq, hl => by
    simp only at hq hl
    subst hq hl
    rw [wfMembers_cons] at hw
    obtain ⟨w1, w2, w3, w4, w5, w6, w7⟩ := hw
    rw [renderMembers_cut, seg_append, seg_append] at hseg
    obtain ⟨h1, h2, hseg⟩ := hseg
    rw [seg_append, seg_cons, seg_append] at hseg
    obtain ⟨h3, h4, h5, h6⟩ := hseg
    have hk : (34 :: (m.key ++ [34])).length = m.key.length + 2 := by simp
    have r1 : Run json body i ⟨st, ks0, ke0, false, 1, K, V⟩ _ _ := H.ws h1 w1
    have r2 := H.key (a := ⟨st, ks0, ke0, false, 1, K, V⟩) rfl h2 w2 (prevOk_ws h1 w1 hp)
    rw [hk] at h3 h4 h5 h6
    have r3 : Run json body _ ⟨st, i + m.l.length, i + m.l.length + (m.key.length + 1), false, 1, K, V⟩ _ _ := H.ws h3 w3
    have b4 := H.colon (s := ⟨st, i + m.l.length, i + m.l.length + (m.key.length + 1), false, 1, K, V⟩) h4 rfl rfl (slice_key h2)
    generalize hb : i + m.l.length + (m.key.length + 2) + m.m.length = b at *
    have r4 := Run.next h4 b4
    generalize hK : (if wantK = true then K ++ [m.key] else K) = K' at *
    generalize hS : (if wantV = true then b + 1 else st) = st' at *
    obtain ⟨s5, r5, ks, ke, hs5⟩ := (H.skips ⟨st', i + m.l.length, i + m.l.length + (m.key.length + 1), false, 1, K', V⟩ rfl).padded
      w4 w5 w6 (d := 0) h5 (prevOk_succ h4 (by decide)) ⟨_, _, rfl⟩
    have base := ((r1.trans r2).trans r3).trans (r4.trans r5)
    clear r1 r2 r3 r4 r5 b4
    subst hs5
    generalize hx : m.l2 ++ (m.v.render ++ m.r) = x at *
    have hcl : ∀ {c : UInt8}, json[b + 1 + x.length]? = some c → wantV = true →
        (slice json (st' : Int) ((b + 1 + x.length : Nat) : Int) >>= cleanValueString) = .ok (cvsSeen m.l2 m.v m.r) := by
      intro c hc hv
      rw [← hS, if_pos hv, slice_seg_len h5 hc, ← hx]
      exact cleanValueString_eq w4 w5 w6
    have base : forUp json.length body i ⟨st, ks0, ke0, false, 1, K, V⟩ = forUp json.length body (b + 1 + x.length) ⟨st', ks, ke, false, 1, K', V⟩ := base
    rw [base]
    by_cases he : ms.isEmpty
    · rw [List.isEmpty_iff] at he
      subst he
      simp only [List.isEmpty_nil, if_true] at h6
      rw [seg_cons] at h6
      have := H.close (s := ⟨st', ks, ke, false, 1, K', V⟩) h6.1 rfl rfl (hcl h6.1)
      rw [forUp_brk (lt_of_getElem? h6.1) this]
      refine ⟨_, rfl, ?_, ?_⟩
      · rw [← hK]; cases wantK <;> simp
      · cases wantV <;> simp
    · simp only [he, Bool.false_eq_true, if_false] at h6
      rw [seg_cons] at h6
      have := H.comma (s := ⟨st', ks, ke, false, 1, K', V⟩) h6.1 rfl rfl (hcl h6.1)
      rw [forUp_next (lt_of_getElem? h6.1) this]
      obtain ⟨s, g1, g2, g3⟩ := KvLike.members H ms (a := ⟨if wantV then b + 1 + x.length + 1 else st', ks, ke, false, 1, K',
          if wantV then V ++ [cvsSeen m.l2 m.v m.r] else V⟩) (by simpa using he) w7 h6.2
        (prevOk_succ h6.1 (by decide)) rfl rfl
      refine ⟨s, g1, ?_, ?_⟩
      · rw [g2, ← hK]; cases wantK <;> simp
      · rw [g3]; cases wantV <;> simp


/-- What `kvRun` does once the start is known. -/
theorem kvRun_start {bodyOf : Bytes → Nat → KvSt → Ctl KvSt Unit} {path : List Bytes} {i : Nat} {c : UInt8} (hne : json ≠ bObj)
    (hs : valueStart json path = .ok i) (hc : json[i]? = some c) :
    kvRun bodyOf json path = if c == 123 then
        match forUp json.length (bodyOf json) i ⟨i, 0, 0, false, 0, [], []⟩ with
        | .ret _ => .panic
        | .done s => .ok s
      else .err .objectExpected := by
  unfold kvRun
  rw [if_neg (by simpa using hne), hs]
  simp only [Out.bind_ok]
  rw [idx_nat hc]
  rfl

theorem ne_bObj {i : Nat} {s : Bytes} (h : Seg json i s) (hs : 2 < s.length) : json ≠ bObj := by
  rintro rfl
  have := h.len (by intro e; rw [e] at hs; simp at hs)
  simp [bObj] at this
  omega

theorem obj_len {g : Text} {ms : List (Member Json)} (hm : ms ≠ []) : 2 < (Json.obj g ms).render.length := by
  rw [render_obj]
  cases ms with
  | nil => exact absurd rfl hm
  | cons m ms => simp [renderMembers_cons]; omega

theorem kvRun_ok {bodyOf : Bytes → Nat → KvSt → Ctl KvSt Unit} (H : ∀ json, KvLike json (bodyOf json) wantK wantV)
    {d : Doc} {path : List Text} {g : Text} {ms : List (Member Json)} (hd : d.wf) (h : d.get? path = some (.obj g ms)) (hm : ms ≠ []) :
    ∃ s, kvRun bodyOf d.render path = .ok s ∧ s.keys = (if wantK then ms.map Member.key else []) ∧
      s.values = (if wantV then ms.map fun m => cvsSeen m.l2 m.v m.r else []) := by
  obtain ⟨i, hs, hseg, hw, -⟩ := valueStart_ok hd h
  rw [kvRun_start (ne_bObj hseg (obj_len hm)) hs (hseg.first hw), first_obj]
  rw [render_obj, seg_cons] at hseg
  have hb : ms.isEmpty = false := by simpa using hm
  simp only [hb, Bool.false_eq_true, if_false] at hseg
  have b0 := (H d.render).opn (s := ⟨i, 0, 0, false, 0, [], []⟩) hseg.1 (Or.inr rfl) rfl
  obtain ⟨s, g1, g2, g3⟩ := (H d.render).members ms (a := ⟨i, 0, 0, false, 0 + 1, [], []⟩) hm (wf_obj.1 hw).2 hseg.2
    (prevOk_succ hseg.1 (by decide)) rfl rfl
  rw [forUp_next (lt_of_getElem? hseg.1) b0, g1]
  exact ⟨s, rfl, by simpa using g2, by simpa using g3⟩

/-- The loops over an object reach the closing bracket of an empty one. -/
theorem kvRun_empty {bodyOf : Bytes → Nat → KvSt → Ctl KvSt Unit} (H : ∀ json, KvLike json (bodyOf json) wantK wantV)
    {d : Doc} {path : List Text} {g : Text} (hd : d.wf) (h : d.get? path = some (.obj g [])) (hne : d.render ≠ bObj) :
    ∃ i, Seg d.render i (123 :: (g ++ [125])) ∧ kvRun bodyOf d.render path =
      match bodyOf d.render (i + 1 + g.length) ⟨i, 0, 0, false, 1, [], []⟩ with
      | .brk s => .ok s
      | .ret _ => .panic
      | .next s => match forUp d.render.length (bodyOf d.render) (i + 1 + g.length + 1) s with
        | .ret _ => .panic
        | .done s => .ok s
      | .goto j s => match forUp d.render.length (bodyOf d.render) (max (i + 1 + g.length) j + 1) s with
        | .ret _ => .panic
        | .done s => .ok s := by
  obtain ⟨i, hs, hseg, hw, -⟩ := valueStart_ok hd h
  refine ⟨i, by simpa [render_obj] using hseg, ?_⟩
  rw [kvRun_start hne hs (hseg.first hw), first_obj]
  rw [render_obj, seg_cons] at hseg
  simp only [List.isEmpty_nil, if_true] at hseg
  have b0 := (H d.render).opn (s := ⟨i, 0, 0, false, 0, [], []⟩) hseg.1 (Or.inr rfl) rfl
  rw [forUp_next (lt_of_getElem? hseg.1) b0]
  have h2 := hseg.2
  rw [seg_append, seg_cons] at h2
  have r : forUp d.render.length (bodyOf d.render) (i + 1) ⟨i, 0, 0, false, 0 + 1, [], []⟩ =
    forUp d.render.length (bodyOf d.render) (i + 1 + g.length) ⟨i, 0, 0, false, 1, [], []⟩ := (H d.render).ws h2.1 (wf_obj.1 hw).1
  rw [r, forUp.eq_def, if_pos (lt_of_getElem? h2.2.1)]
  cases bodyOf d.render (i + 1 + g.length) ⟨i, 0, 0, false, 1, [], []⟩ <;> rfl

theorem kvRun_other {bodyOf : Bytes → Nat → KvSt → Ctl KvSt Unit}
    {d : Doc} {path : List Text} {w : Json} (hd : d.wf) (h : d.get? path = some w) (hk : ∀ g ms, w ≠ .obj g ms) :
    kvRun bodyOf d.render path = .err .objectExpected := by
  obtain ⟨i, hs, hseg, hw, -⟩ := valueStart_ok hd h
  have hf : w.first ≠ 123 := by
    cases w with
    | obj g ms => exact absurd rfl (hk g ms)
    | lit t => exact (tokByte_ne (first_lit hw)).2.2.2.2.2.2.2.1
    | str t => rw [first_str]; decide
    | arr g ms => rw [first_arr]; decide
  rw [kvRun_start ?_ hs (hseg.first hw), if_neg (by simpa using hf)]
  intro e
  -- in the text `{}` the only value is the object
  have hf2 : w.first ≠ 125 := by
    cases w with
    | obj g ms => exact absurd rfl (hk g ms)
    | lit t => exact (tokByte_ne (first_lit hw)).2.2.2.2.2.2.2.2
    | str t => rw [first_str]; decide
    | arr g ms => rw [first_arr]; decide
  have := hseg.first hw
  rw [e] at this
  match i, this with
  | 0, this => simp [bObj] at this; exact hf this.symm
  | 1, this => simp [bObj] at this; exact hf2 this.symm
  | n + 2, this => simp [bObj] at this

end kv

/-! ### IterateKeyValue -/

section ik
variable {σ : Type} {json : Bytes} {cb : σ → Bytes → Bytes → Cb σ}

/-- `IterateKeyValue` as written: what the callback says about the last member is ignored. -/
def visitLast {σ : Type} (cb : σ → Bytes → Bytes → Cb σ) : List (Bytes × Bytes) → σ → IterRes σ
  | [], u => .done u none
  | x :: xs, u =>
    match cb u x.1 x.2 with
    | .panic => .panic
    | .ret u keepGoing err =>
      if xs.isEmpty then .done u none
      else if err.isSome then .done u err
      else if keepGoing then visitLast cb xs u
      else .done u none

/-- What it sees of the members: a one-byte value before a comma keeps the whitespace
after it. -/
def ikSeen : List (Member Json) → List (Bytes × Bytes)
  | [] => []
  | m :: ms =>
    (m.key, if m.v.render.length = 1 ∧ ms ≠ [] then m.v.render ++ m.r else m.v.content) :: ikSeen ms

theorem ik_ws {s : IkSt σ} {w : Bytes} {i : Nat} (h : Seg json i w) (hw : Ws w) : Run json (ikBody json cb) i s (i + w.length) s :=
  run_ws (fun hc h => by simp [ikBody, hc, isJSONChar_tok (.inr h)]) h hw

theorem ikValue_unquote (json : Bytes) (a b : Nat) : ikValue json a b = unquoteSlice json a b := rfl

theorem ik_members : ∀ (ms : List (Member Json)) {i : Nat} {a : IkSt σ}, ms ≠ [] → wfMembers ms →
    Seg json i (renderMembers ms ++ [125]) → PrevOk json i → a.inQuote = false → a.level = 1 →
    forUp json.length (ikBody json cb) i a = .ret (visitLast cb (ikSeen ms) a.user)
  | [], _, _, h, _, _, _, _, _ => absurd rfl h
  | m :: ms, i, ⟨st, sp, ks0, ke0, q, lv, K, u⟩, _, hw, hseg, hp, hq, hl => by
    simp only at hq hl
    subst hq hl
    rw [wfMembers_cons] at hw
    obtain ⟨w1, w2, w3, w4, w5, w6, w7⟩ := hw
    rw [renderMembers_cut, seg_append, seg_append] at hseg
    obtain ⟨h1, h2, hseg⟩ := hseg
    rw [seg_append, seg_cons, seg_append] at hseg
    obtain ⟨h3, h4, h5, h6⟩ := hseg
    have hk : (34 :: (m.key ++ [34])).length = m.key.length + 2 := by simp
    have r1 : Run json (ikBody json cb) i ⟨st, sp, ks0, ke0, false, 1, K, u⟩ _ _ := ik_ws h1 w1
    have r2 := ik_key (cb := cb) (a := ⟨st, sp, ks0, ke0, false, 1, K, u⟩) rfl h2 w2 (prevOk_ws h1 w1 hp)
    rw [hk] at h3 h4 h5 h6
    have r3 : Run json (ikBody json cb) _ ⟨st, sp, i + m.l.length, i + m.l.length + (m.key.length + 1), false, 1, K, u⟩ _ _ := ik_ws h3 w3
    generalize hb : i + m.l.length + (m.key.length + 2) + m.m.length = b at *
    have b4 : ikBody json cb b ⟨st, sp, i + m.l.length, i + m.l.length + (m.key.length + 1), false, 1, K, u⟩ =
        .next ⟨b + 1, sp, i + m.l.length, i + m.l.length + (m.key.length + 1), false, 1, m.key, u⟩ := by
      simp only [ikBody, h4, isJSONChar]
      rw [slice_key h2]
      simp
    have r4 := Run.next h4 b4
    obtain ⟨s5, r5, ks, ke, hs5⟩ := (ik_skips (cb := cb) ⟨b + 1, sp, i + m.l.length, i + m.l.length + (m.key.length + 1), false, 1, m.key, u⟩ rfl).padded
      w4 w5 w6 (d := 0) h5 (prevOk_succ h4 (by decide)) ⟨_, _, rfl⟩
    have base := ((r1.trans r2).trans r3).trans (r4.trans r5)
    clear r1 r2 r3 r4 r5 b4
    subst hs5
    have h5' := h5
    rw [seg_append, seg_append] at h5'
    obtain ⟨g1, g2, g3⟩ := h5'
    have hpos : 0 < m.v.render.length := List.length_pos_iff.2 (render_ne_nil w5)
    obtain ⟨c, hc, hns⟩ := g2.last_ns w5
    have hf := g2.first w5
    have hxl : (m.l2 ++ (m.v.render ++ m.r)).length = m.l2.length + m.v.render.length + m.r.length := by simp; omega
    have base : forUp json.length (ikBody json cb) i ⟨st, sp, ks0, ke0, false, 1, K, u⟩ =
      forUp json.length (ikBody json cb) (b + 1 + (m.l2 ++ (m.v.render ++ m.r)).length) ⟨b + 1, sp, ks, ke, false, 1, m.key, u⟩ := base
    rw [base]
    have e1 : firstNS json (b + 1) (b + 1 + (m.l2 ++ (m.v.render ++ m.r)).length) = some (b + 1 + m.l2.length) :=
      firstNS_ws g1 w4 hf (first_ns w5) (by omega)
    have e2 : ∀ lo, lo ≤ b + 1 + m.l2.length + m.v.render.length → lastNS json lo (b + 1 + (m.l2 ++ (m.v.render ++ m.r)).length) =
        if b + 1 + m.l2.length + m.v.render.length - 1 < lo then none else some (b + 1 + m.l2.length + m.v.render.length - 1) := by
      intro lo hlo
      have := lastNS_ws (lo := lo) hc hns m.r (by
        rw [show b + 1 + m.l2.length + m.v.render.length - 1 + 1 = b + 1 + m.l2.length + m.v.render.length by omega]; exact g3) w6 (by omega)
      rw [← this]; congr 1; omega
    by_cases he : ms.isEmpty
    · rw [List.isEmpty_iff] at he
      subst he
      simp only [List.isEmpty_nil, if_true] at h6
      rw [seg_cons] at h6
      have hbody : ikBody json cb (b + 1 + (m.l2 ++ (m.v.render ++ m.r)).length) ⟨b + 1, sp, ks, ke, false, 1, m.key, u⟩ =
          match cb u m.key m.v.content with
          | .ret u _ _ => .ret (.done u none)
          | .panic => .ret .panic := by
        simp only [ikBody, h6.1, isJSONChar]
        simp only [e1, Option.getD_some, e2 (b + 1 + m.l2.length) (by omega), if_neg (show ¬ b + 1 + m.l2.length + m.v.render.length - 1 < b + 1 + m.l2.length by omega),
          ikValue_unquote, unquote_seg w5 g2]
        simp
        rfl
      refine forUp_ret (lt_of_getElem? h6.1) ?_
      rw [hbody]
      have : ikSeen [m] = [(m.key, m.v.content)] := by simp [ikSeen]
      rw [this]
      simp only [visitLast]
      cases cb u m.key m.v.content <;> rfl
    · simp only [he, Bool.false_eq_true, if_false] at h6
      rw [seg_cons] at h6
      have he' : ms ≠ [] := by simpa using he
      have hval : ikValue json (b + 1 + m.l2.length)
          ((lastNS json (b + 1 + m.l2.length + 1) (b + 1 + (m.l2 ++ (m.v.render ++ m.r)).length)).getD (b + 1 + (m.l2 ++ (m.v.render ++ m.r)).length - 1)) =
          .ok (if m.v.render.length = 1 ∧ ms ≠ [] then m.v.render ++ m.r else m.v.content) := by
        rw [e2 _ (by omega), ikValue_unquote]
        by_cases h1 : m.v.render.length = 1
        · rw [if_pos (by omega), if_pos ⟨h1, he'⟩, Option.getD_none]
          unfold unquoteSlice
          rw [idx_nat hf]
          simp only [Out.bind_ok]
          rw [if_neg (by simpa using (one_byte w5 h1).2)]
          have g : Seg json (b + 1 + m.l2.length) (m.v.render ++ m.r) := by rw [seg_append]; exact ⟨g2, g3⟩
          have := slice_seg g (j := b + 1 + (m.l2 ++ (m.v.render ++ m.r)).length) (by simp; omega) (Nat.le_of_lt (lt_of_getElem? h6.1))
          rw [← this]; congr 1; omega
        · rw [if_neg (by omega), if_neg (by simp [h1]), Option.getD_some]
          exact unquote_seg w5 g2
      rw [ikSeen, visitLast]
      generalize (if m.v.render.length = 1 ∧ ms ≠ [] then m.v.render ++ m.r else m.v.content) = val at *
      have hbody : ikBody json cb (b + 1 + (m.l2 ++ (m.v.render ++ m.r)).length) ⟨b + 1, sp, ks, ke, false, 1, m.key, u⟩ =
          match cb u m.key val with
          | .ret u _ (some e) => .ret (.done u (some e))
          | .ret u false none => .ret (.done u none)
          | .ret u true none => .next ⟨b + 1 + m.l2.length,
              (lastNS json (b + 1 + m.l2.length + 1) (b + 1 + (m.l2 ++ (m.v.render ++ m.r)).length)).getD (b + 1 + (m.l2 ++ (m.v.render ++ m.r)).length - 1),
              ks, ke, false, 1, m.key, u⟩
          | .panic => .ret .panic := by
        simp only [ikBody, h6.1, isJSONChar]
        simp only [e1, Option.getD_some, hval]
        simp
        rfl
      have hne : (ikSeen ms).isEmpty = false := by
        cases ms with
        | nil => exact absurd rfl he'
        | cons => rfl
      simp only [hne, Bool.false_eq_true, if_false]
      cases hcb : cb u m.key val with
      | panic => rw [hcb] at hbody; rw [forUp_ret (lt_of_getElem? h6.1) hbody]
      | ret u' k er =>
        rw [hcb] at hbody
        cases er with
        | some er => rw [forUp_ret (lt_of_getElem? h6.1) hbody]; rfl
        | none =>
          cases k with
          | false => rw [forUp_ret (lt_of_getElem? h6.1) hbody]; rfl
          | true =>
            rw [forUp_next (lt_of_getElem? h6.1) hbody]
            exact ik_members ms he' w7 h6.2 (prevOk_succ h6.1 (by decide)) rfl rfl

theorem iterateKV_ok {d : Doc} {path : List Text} {g : Text} {ms : List (Member Json)} (hd : d.wf)
    (h : d.get? path = some (.obj g ms)) (hm : ms ≠ []) (u : σ) :
    IterateKeyValue d.render cb path u = visitLast cb (ikSeen ms) u := by
  obtain ⟨i, hs, hseg, hw, -⟩ := valueStart_ok hd h
  unfold IterateKeyValue
  rw [if_neg (by simpa using ne_bObj hseg (obj_len hm)), hs]
  simp only [hseg.first hw, first_obj, beq_self_eq_true, if_true]
  rw [render_obj, seg_cons] at hseg
  have hb : ms.isEmpty = false := by simpa using hm
  simp only [hb, Bool.false_eq_true, if_false] at hseg
  have b0 : ikBody d.render cb i ⟨i, 0, 0, 0, false, 0, [], u⟩ = .next ⟨i, 0, 0, 0, false, 1, [], u⟩ := by
    simp [ikBody, hseg.1, isJSONChar]
  rw [forUp_next (lt_of_getElem? hseg.1) b0, ik_members ms hm (wf_obj.1 hw).2 hseg.2 (prevOk_succ hseg.1 (by decide)) rfl rfl]

theorem iterateKV_other {d : Doc} {path : List Text} {w : Json} (hd : d.wf) (h : d.get? path = some w) (hk : ∀ g ms, w ≠ .obj g ms)
    (u : σ) : IterateKeyValue d.render cb path u = .done u (some .objectExpected) := by
  obtain ⟨i, hs, hseg, hw, -⟩ := valueStart_ok hd h
  have := kvRun_other (bodyOf := keysBody) hd h hk
  unfold IterateKeyValue
  by_cases he : d.render = bObj
  · rw [kvRun, if_pos (by simpa using he)] at this; cases this
  · rw [kvRun_start he hs (hseg.first hw)] at this
    rw [if_neg (by simpa using he), hs]
    simp only [hseg.first hw]
    split
    · rename_i h123
      rw [if_pos h123] at this
      split at this <;> cases this
    · rfl

end ik

end Jin
