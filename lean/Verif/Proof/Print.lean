import Verif.Proof.Edges
import Verif.Proof.Tree
import Verif.Model.Others
import Verif.Spec.Format
/-!
# Proof.Print — loops that rewrite the text of a value token by token

`Flatten` and `Indent` copy the tokens and write something of their own at brackets,
commas and colons.  `Prints.value` says once for both what comes out.
-/

namespace Jin
open Spec

/-- What is written at brackets, commas and colons; the number is the nesting depth. -/
structure Style where
  opn : Nat → UInt8 → Bytes
  cls : Nat → UInt8 → Bytes
  comma : Nat → Bytes
  colon : Bytes

mutual
/-- The output for a value. -/
def emit (P : Style) (d : Nat) : Json → Bytes
  | .lit t => t
  | .str raw => 34 :: (raw ++ [34])
  | .arr _ es => P.opn d 91 ++ (emitElems P (d + 1) es ++ P.cls d 93)
  | .obj _ ms => P.opn d 123 ++ (emitMembers P (d + 1) ms ++ P.cls d 125)
def emitElems (P : Style) (d : Nat) : List (Elem Json) → Bytes
  | [] => []
  | ⟨_, v, _⟩ :: es => emit P d v ++ (if es.isEmpty then [] else P.comma d ++ emitElems P d es)
def emitMembers (P : Style) (d : Nat) : List (Member Json) → Bytes
  | [] => []
  | ⟨_, k, _, _, v, _⟩ :: ms => (34 :: (k ++ [34])) ++ (P.colon ++ (emit P d v ++
      (if ms.isEmpty then [] else P.comma d ++ emitMembers P d ms)))
end

/-- The loop body writes in style `P`; `S d out` is the state at depth `d` with output `out`.
Strings with content satisfying `Q` are copied. -/
structure Prints {σ ρ : Type} (json : Bytes) (body : Nat → σ → Ctl σ ρ) (Q : Text → Bool) (P : Style) (S : Nat → Bytes → σ) : Prop where
  tok : ∀ {i d out c}, json[i]? = some c → tokByte c → body i (S d out) = .next (S d (out ++ [c]))
  ws : ∀ {i d out c}, json[i]? = some c → isWs c → body i (S d out) = .next (S d out)
  comma : ∀ {i d out}, json[i]? = some 44 → body i (S d out) = .next (S d (out ++ P.comma d))
  colon : ∀ {i d out}, json[i]? = some 58 → body i (S d out) = .next (S d (out ++ P.colon))
  opn : ∀ {i d out c}, json[i]? = some c → c = 91 ∨ c = 123 → body i (S d out) = .next (S (d + 1) (out ++ P.opn d c))
  cls : ∀ {i d out c}, json[i]? = some c → c = 93 ∨ c = 125 → body i (S (d + 1) out) = .next (S d (out ++ P.cls d c))
  str : ∀ {i d out raw}, Seg json i (34 :: (raw ++ [34])) → strOk raw → Q raw → PrevOk json i →
    Run json body i (S d out) (i + (raw.length + 2)) (S d (out ++ 34 :: (raw ++ [34])))

section
variable {σ ρ : Type} {json : Bytes} {body : Nat → σ → Ctl σ ρ} {Q : Text → Bool} {P : Style} {S : Nat → Bytes → σ}

theorem Prints.wss (H : Prints json body Q P S) {t : Bytes} (ht : Ws t) {d out} : ∀ {i}, Seg json i t →
    Run json body i (S d out) (i + t.length) (S d out) := by
  induction t with
  | nil => intro i _; exact Run.refl
  | cons c t ih =>
    intro i h
    rw [seg_cons] at h
    rw [ws_cons, Bool.and_eq_true] at ht
    exact ((Run.next h.1 (H.ws h.1 ht.1)).trans (ih ht.2 h.2)).to (by simp; omega)

theorem Prints.toks (H : Prints json body Q P S) {t : Bytes} (ht : ∀ c ∈ t, tokByte c) {d} : ∀ {i out}, Seg json i t →
    Run json body i (S d out) (i + t.length) (S d (out ++ t)) := by
  induction t with
  | nil => intro i out _; simpa using Run.refl
  | cons c t ih =>
    intro i out h
    rw [seg_cons] at h
    have := (Run.next h.1 (H.tok (d := d) (out := out) h.1 (ht c List.mem_cons_self))).trans (ih (fun c hc => ht c (List.mem_cons_of_mem _ hc)) h.2)
    rw [show out ++ [c] ++ t = out ++ c :: t by simp] at this
    exact this.to (by simp; omega)

mutual
theorem Prints.value (H : Prints json body Q P S) : ∀ (v : Json) {i d out}, v.wf → v.allStr Q → Seg json i v.render →
    ((∃ raw, v = .str raw) → PrevOk json i) → Run json body i (S d out) (i + v.render.length) (S d (out ++ emit P d v))
  | .lit t, i, d, out, hw, _, hseg, _ => by
    rw [render_lit] at hseg ⊢
    rw [emit]
    simp only [Json.wf, Bool.and_eq_true, List.all_eq_true] at hw
    exact H.toks hw.2 hseg
  | .str raw, i, d, out, hw, ha, hseg, hp => by
    rw [render_str] at hseg ⊢
    rw [emit]
    have := H.str (d := d) (out := out) hseg (by simpa [Json.wf] using hw) (by simpa [Json.allStr] using ha) (hp ⟨raw, rfl⟩)
    simpa using this
  | .arr g es, i, d, out, hw, ha, hseg, _ => by
    rw [render_arr, seg_cons, seg_append, seg_cons] at hseg
    obtain ⟨h1, h2, h3, _⟩ := hseg
    simp only [Json.wf, Bool.and_eq_true] at hw
    rw [Json.allStr] at ha
    have r1 := Run.next h1 (H.opn (d := d) (out := out) h1 (Or.inl rfl))
    have r2 : Run json body (i + 1) (S (d + 1) (out ++ P.opn d 91)) (i + 1 + (if es.isEmpty then g else renderElems es).length)
        (S (d + 1) (out ++ P.opn d 91 ++ emitElems P (d + 1) es)) := by
      by_cases he : es.isEmpty
      · simp only [he, if_true] at h2 ⊢
        rw [List.isEmpty_iff] at he
        simpa [he, emitElems] using H.wss hw.1 h2
      · simp only [he, Bool.false_eq_true, if_false] at h2 ⊢
        exact Prints.elems H es hw.2 ha h2 (prevOk_succ h1 (by decide))
    have r3 := Run.next h3 (H.cls (d := d) (out := out ++ P.opn d 91 ++ emitElems P (d + 1) es) h3 (Or.inl rfl))
    have := (r1.trans r2).trans r3
    rw [emit, render_arr]
    simp only [List.append_assoc] at this ⊢
    exact this.to (by simp; omega)
  | .obj g ms, i, d, out, hw, ha, hseg, _ => by
    rw [render_obj, seg_cons, seg_append, seg_cons] at hseg
    obtain ⟨h1, h2, h3, _⟩ := hseg
    simp only [Json.wf, Bool.and_eq_true] at hw
    rw [Json.allStr] at ha
    have r1 := Run.next h1 (H.opn (d := d) (out := out) h1 (Or.inr rfl))
    have r2 : Run json body (i + 1) (S (d + 1) (out ++ P.opn d 123)) (i + 1 + (if ms.isEmpty then g else renderMembers ms).length)
        (S (d + 1) (out ++ P.opn d 123 ++ emitMembers P (d + 1) ms)) := by
      by_cases he : ms.isEmpty
      · simp only [he, if_true] at h2 ⊢
        rw [List.isEmpty_iff] at he
        simpa [he, emitMembers] using H.wss hw.1 h2
      · simp only [he, Bool.false_eq_true, if_false] at h2 ⊢
        exact Prints.members H ms hw.2 ha h2 (prevOk_succ h1 (by decide))
    have r3 := Run.next h3 (H.cls (d := d) (out := out ++ P.opn d 123 ++ emitMembers P (d + 1) ms) h3 (Or.inr rfl))
    have := (r1.trans r2).trans r3
    rw [emit, render_obj]
    simp only [List.append_assoc] at this ⊢
    exact this.to (by simp; omega)

theorem Prints.elems (H : Prints json body Q P S) : ∀ (es : List (Elem Json)) {i d out}, wfElems es → allStrElems Q es →
    Seg json i (renderElems es) → PrevOk json i →
    Run json body i (S d out) (i + (renderElems es).length) (S d (out ++ emitElems P d es))
  | [], i, d, out, _, _, _, _ => by simpa [renderElems, emitElems] using Run.refl
  | ⟨l, v, r⟩ :: es, i, d, out, hw, ha, hseg, hp => by
    rw [renderElems, seg_append, seg_append, seg_append] at hseg
    obtain ⟨h1, h2, h3, h4⟩ := hseg
    simp only [wfElems, Bool.and_eq_true] at hw
    obtain ⟨⟨⟨w1, w2⟩, w3⟩, w4⟩ := hw
    simp only [allStrElems, Bool.and_eq_true] at ha
    have base := ((H.wss w1 h1 (d := d) (out := out)).trans (Prints.value H v w2 ha.1 h2 (fun _ => prevOk_ws h1 w1 hp))).trans (H.wss w3 h3)
    rw [renderElems, emitElems]
    by_cases he : es.isEmpty
    · simp only [he, if_true, List.append_nil] at base ⊢
      exact base.to (by simp; omega)
    · simp only [he, Bool.false_eq_true, if_false] at h4 ⊢
      rw [seg_cons] at h4
      have := (base.trans (Run.next h4.1 (H.comma h4.1))).trans (Prints.elems H es w4 ha.2 h4.2 (prevOk_succ h4.1 (by decide)))
      simp only [List.append_assoc] at this ⊢
      exact this.to (by simp; omega)

theorem Prints.members (H : Prints json body Q P S) : ∀ (ms : List (Member Json)) {i d out}, wfMembers ms → allStrMembers Q ms →
    Seg json i (renderMembers ms) → PrevOk json i →
    Run json body i (S d out) (i + (renderMembers ms).length) (S d (out ++ emitMembers P d ms))
  | [], i, d, out, _, _, _, _ => by simpa [renderMembers, emitMembers] using Run.refl
  | ⟨l, k, m, l2, v, r⟩ :: ms, i, d, out, hw, ha, hseg, hp => by
    have hr : renderMembers (⟨l, k, m, l2, v, r⟩ :: ms) =
        l ++ ((34 :: (k ++ [34])) ++ (m ++ ([58] ++ (l2 ++ (v.render ++ (r ++
          (if ms.isEmpty then [] else 44 :: renderMembers ms))))))) := by
      simp [renderMembers]
    rw [hr] at hseg ⊢
    rw [seg_append, seg_append, seg_append, seg_append, seg_append, seg_append, seg_append] at hseg
    obtain ⟨h1, h2, h3, h4, h5, h6, h7, h8⟩ := hseg
    rw [seg_cons] at h4
    simp only [wfMembers, Bool.and_eq_true] at hw
    obtain ⟨⟨⟨⟨⟨⟨w1, w2⟩, w3⟩, w4⟩, w5⟩, w6⟩, w7⟩ := hw
    simp only [allStrMembers, Bool.and_eq_true] at ha
    have r1 := H.wss w1 h1 (d := d) (out := out)
    have r2 := H.str (d := d) (out := out) h2 w2 ha.1.1 (prevOk_ws h1 w1 hp)
    have r3 := H.wss w3 h3 (d := d) (out := out ++ 34 :: (k ++ [34]))
    have r4 := Run.next h4.1 (H.colon (d := d) (out := out ++ 34 :: (k ++ [34])) h4.1)
    have r5 := H.wss w4 h5 (d := d) (out := out ++ 34 :: (k ++ [34]) ++ P.colon)
    have r6 := Prints.value H v (d := d) (out := out ++ 34 :: (k ++ [34]) ++ P.colon) w5 ha.1.2 h6
      (fun _ => prevOk_ws h5 w4 (prevOk_succ h4.1 (by decide)))
    have r7 := H.wss w6 h7 (d := d) (out := out ++ 34 :: (k ++ [34]) ++ P.colon ++ emit P d v)
    have hk : (34 :: (k ++ [34])).length = k.length + 2 := by simp
    rw [hk] at r3 h3 h4 r4 r5 h5 r6 h6 r7 h7 h8
    have base := (((((r1.trans r2).trans r3).trans r4).trans r5).trans r6).trans r7
    rw [emitMembers]
    by_cases he : ms.isEmpty
    · simp only [he, if_true, List.append_nil, List.append_assoc] at base ⊢
      exact base.to (by simp; omega)
    · simp only [he, Bool.false_eq_true, if_false] at h8 ⊢
      rw [seg_cons] at h8
      have := (base.trans (Run.next h8.1 (H.comma h8.1))).trans (Prints.members H ms w7 ha.2 h8.2 (prevOk_succ h8.1 (by decide)))
      simp only [List.append_assoc, List.cons_append] at this ⊢
      exact this.to (by simp; omega)
end

end

/-! ### Flatten -/

/-- Copy brackets, commas and colons. -/
def plain : Style := ⟨fun _ c => [c], fun _ c => [c], fun _ => [44], [58]⟩

mutual
theorem emit_plain (d : Nat) : ∀ v : Json, emit plain d v = v.strip.render
  | .lit t => by simp [emit, Json.strip]
  | .str t => by simp [emit, Json.strip]
  | .arr g es => by
    rw [emit, Json.strip, render_arr, emitElems_plain (d + 1) es]
    cases es <;> simp [plain, stripElems_eq, renderElems]
  | .obj g ms => by
    rw [emit, Json.strip, render_obj, emitMembers_plain (d + 1) ms]
    cases ms <;> simp [plain, stripMembers_eq, renderMembers]
theorem emitElems_plain (d : Nat) : ∀ es : List (Elem Json), emitElems plain d es = renderElems (stripElems es)
  | [] => by simp [emitElems, stripElems, renderElems]
  | ⟨l, v, r⟩ :: es => by
    rw [emitElems, stripElems, renderElems, emit_plain d v, emitElems_plain d es]
    cases es <;> simp [plain, stripElems]
theorem emitMembers_plain (d : Nat) : ∀ ms : List (Member Json), emitMembers plain d ms = renderMembers (stripMembers ms)
  | [] => by simp [emitMembers, stripMembers, renderMembers]
  | ⟨l, k, m, l2, v, r⟩ :: ms => by
    rw [emitMembers, stripMembers, renderMembers, emit_plain d v, emitMembers_plain d ms]
    cases ms <;> simp [plain, stripMembers]
end

section flat
variable {json : Bytes}

theorem flat_raw {raw : Bytes} (hok : strOk raw) : ∀ {i out}, Seg json i (raw ++ [34]) →
    Run json (flatBody json) i ⟨out, true⟩ (i + raw.length + 1) ⟨out ++ (raw ++ [34]), false⟩ := by
  revert raw
  suffices h : ∀ raw : Bytes, strOk raw → ∀ {i out}, Seg json i (raw ++ [34]) →
      Run json (flatBody json) i ⟨out, true⟩ (i + raw.length + 1) ⟨out ++ (raw ++ [34]), false⟩ from fun {raw} => h raw
  refine strOk_ind ?_ ?_ ?_
  · intro i out h
    rw [List.nil_append, seg_cons] at h
    exact Run.next h.1 (by simp [flatBody, h.1])
  · intro b r _ ih i out h
    rw [List.cons_append, List.cons_append, seg_cons, seg_cons] at h
    have b1 : flatBody json i ⟨out, true⟩ = .goto (i + 1) ⟨out ++ [92, b], true⟩ := by simp [flatBody, h.1, h.2.1]
    have r1 : Run json (flatBody json) i ⟨out, true⟩ (i + 2) ⟨out ++ [92, b], true⟩ := by
      unfold Run
      rw [forUp_goto (lt_of_getElem? h.1) b1 (by omega)]
    have r2 := ih (i := i + 2) (out := out ++ [92, b]) h.2.2
    have := r1.trans r2
    simp only [List.append_assoc, List.cons_append, List.nil_append] at this ⊢
    exact this.to (by simp; omega)
  · intro c r h1 h2 _ ih i out h
    rw [List.cons_append, seg_cons] at h
    have r1 : Run json (flatBody json) i ⟨out, true⟩ (i + 1) ⟨out ++ [c], true⟩ := Run.next h.1 (by simp [flatBody, h.1, h1, h2])
    have := r1.trans (ih (out := out ++ [c]) h.2)
    simp only [List.append_assoc, List.cons_append, List.nil_append] at this ⊢
    exact this.to (by simp; omega)

theorem flat_str {i : Nat} {out raw : Bytes} (h : Seg json i (34 :: (raw ++ [34]))) (hok : strOk raw) :
    Run json (flatBody json) i ⟨out, false⟩ (i + (raw.length + 2)) ⟨out ++ 34 :: (raw ++ [34]), false⟩ := by
  rw [seg_cons] at h
  have r1 : Run json (flatBody json) i ⟨out, false⟩ (i + 1) ⟨out ++ [34], true⟩ := Run.next h.1 (by simp [flatBody, h.1])
  have := r1.trans (flat_raw hok h.2)
  simp only [List.append_assoc, List.cons_append, List.nil_append] at this
  exact this.to (by omega)

theorem flat_prints : Prints json (flatBody json) (fun _ => true) plain (fun _ out => ⟨out, false⟩) where
  tok := by
    intro i d out c hc ht
    have := tokByte_ne ht
    simp [flatBody, hc, this, space_eq]
  ws := by
    intro i d out c hc ht
    have := isWs_ne ht
    simp [flatBody, hc, this, space_eq, ht]
  comma := by intro i d out hc; simp [flatBody, hc, space, plain]
  colon := by intro i d out hc; simp [flatBody, hc, space, plain]
  opn := by intro i d out c hc h; rcases h with rfl | rfl <;> simp [flatBody, hc, space, plain]
  cls := by intro i d out c hc h; rcases h with rfl | rfl <;> simp [flatBody, hc, space, plain]
  str := by intro i d out raw h hok _ _; exact flat_str h hok

end flat

theorem flatten_ok {d : Doc} (hd : d.wf) : Flatten d.render = d.root.strip.render := by
  obtain ⟨w1, w2, w3⟩ := doc_wf.1 hd
  have hs : Seg d.render 0 (d.lead ++ (d.root.render ++ d.trail)) := seg_self _
  rw [seg_append, seg_append] at hs
  obtain ⟨h1, h2, h3⟩ := hs
  have H := flat_prints (json := d.render)
  have r1 := H.wss w1 h1 (d := 0) (out := [])
  have r2 : Run d.render (flatBody d.render) (0 + d.lead.length) ⟨[], false⟩ (0 + d.lead.length + d.root.render.length)
      ⟨d.root.strip.render, false⟩ := by
    cases hr : d.root with
    | str raw =>
      rw [hr] at h2 w2
      have := flat_str (out := []) (raw := raw) (by simpa using h2) (by simpa [Json.wf] using w2)
      simpa [Json.strip] using this
    | lit t =>
      rw [← hr]
      have := H.value d.root (d := 0) (out := []) w2 (allStr_true _) h2 (by rintro ⟨raw, e⟩; rw [hr] at e; cases e)
      rwa [emit_plain] at this
    | arr g es =>
      rw [← hr]
      have := H.value d.root (d := 0) (out := []) w2 (allStr_true _) h2 (by rintro ⟨raw, e⟩; rw [hr] at e; cases e)
      rwa [emit_plain] at this
    | obj g es =>
      rw [← hr]
      have := H.value d.root (d := 0) (out := []) w2 (allStr_true _) h2 (by rintro ⟨raw, e⟩; rw [hr] at e; cases e)
      rwa [emit_plain] at this
  have r3 := H.wss w3 h3 (d := 0) (out := d.root.strip.render)
  have := (r1.trans r2).trans r3
  unfold Flatten
  rw [this, forUp_end (by rw [Doc.render]; simp; omega)]

/-! ### Indent -/

/-- A new line after opening brackets and commas and before closing brackets, a space after colons. -/
def pretty : Style :=
  ⟨fun d c => c :: newline (d + 1), fun d c => newline d ++ [c], fun d => 44 :: newline d, [58, 32]⟩

section ind
variable {json : Bytes}

theorem ind_raw {raw : Bytes} (hok : strOk raw) : ∀ {i out lv}, Seg json i raw →
    Run json (indBody json) i ⟨out, true, lv⟩ (i + raw.length) ⟨out ++ raw, true, lv⟩ := by
  revert raw
  suffices h : ∀ raw : Bytes, strOk raw → ∀ {i out lv}, Seg json i raw →
      Run json (indBody json) i ⟨out, true, lv⟩ (i + raw.length) ⟨out ++ raw, true, lv⟩ from fun {raw} => h raw
  refine strOk_ind ?_ ?_ ?_
  · intro i out lv h; simpa using Run.refl
  · intro b r _ ih i out lv h
    rw [seg_cons, seg_cons] at h
    have r1 : Run json (indBody json) i ⟨out, true, lv⟩ (i + 1) ⟨out ++ [92], true, lv⟩ := Run.next h.1 (by simp [indBody, h.1])
    have hp : idx json ((i + 1 : Nat) - 1 : Int) = .ok 92 := idx_pred (by omega) (by simpa using h.1)
    have r2 : Run json (indBody json) (i + 1) ⟨out ++ [92], true, lv⟩ (i + 1 + 1) ⟨out ++ [92] ++ [b], true, lv⟩ := by
      refine Run.next h.2.1 ?_
      by_cases hb : b = 34
      · subst hb
        simp only [indBody, h.2.1, hp]; rfl
      · simp [indBody, h.2.1, hb]
    have := (r1.trans r2).trans (ih h.2.2)
    simp only [List.append_assoc, List.cons_append, List.nil_append] at this
    exact this.to (by simp; omega)
  · intro c r h1 h2 _ ih i out lv h
    rw [seg_cons] at h
    have r1 : Run json (indBody json) i ⟨out, true, lv⟩ (i + 1) ⟨out ++ [c], true, lv⟩ := Run.next h.1 (by simp [indBody, h.1, h2])
    have := r1.trans (ih (out := out ++ [c]) h.2)
    simp only [List.append_assoc, List.cons_append, List.nil_append] at this
    exact this.to (by simp; omega)

/-- A quote whose previous byte is not a backslash. -/
theorem ind_quote {i : Nat} {out : Bytes} {q : Bool} {lv : Int} {p : UInt8} (h0 : 0 < i) (hc : json[i]? = some 34) (hp : json[i - 1]? = some p)
    (hp' : p ≠ 92) : Run json (indBody json) i ⟨out, q, lv⟩ (i + 1) ⟨out ++ [34], !q, lv⟩ :=
  Run.next hc (by
    simp only [indBody, hc, idx_pred h0 hp]
    simp [hp'])

theorem ind_str {i : Nat} {out raw : Bytes} {lv : Int} (h : Seg json i (34 :: (raw ++ [34]))) (hok : strOk raw) (hq : noTrailBs raw)
    (hp : PrevOk json i) :
    Run json (indBody json) i ⟨out, false, lv⟩ (i + (raw.length + 2)) ⟨out ++ 34 :: (raw ++ [34]), false, lv⟩ := by
  rw [seg_cons, seg_append, seg_cons] at h
  obtain ⟨p, hp1, hp2⟩ : ∃ p, json[i - 1]? = some p ∧ p ≠ 92 := by
    obtain ⟨h0, h1⟩ := hp
    cases i with
    | zero => omega
    | succ n =>
      have hlt : n < json.length := by have := lt_of_getElem? h.1; omega
      refine ⟨json[n], by simp [hlt], ?_⟩
      intro e
      rw [tb, if_pos (by rw [List.getElem?_eq_getElem hlt, e])] at h1
      omega
  have r1 := ind_quote (out := out) (q := false) (lv := lv) hp.1 h.1 hp1 hp2
  have r2 := ind_raw hok (out := out ++ [34]) (lv := lv) h.2.1
  obtain ⟨p', hp1', hp2'⟩ : ∃ p, json[i + 1 + raw.length - 1]? = some p ∧ p ≠ 92 := by
    rcases List.eq_nil_or_concat raw with rfl | ⟨r, b, rfl⟩
    · exact ⟨34, by simpa using h.1, by decide⟩
    · rw [List.concat_eq_append] at *
      have hb : b ≠ 92 := by simpa [noTrailBs] using hq
      have := h.2.1
      rw [seg_append, seg_cons] at this
      exact ⟨b, by simpa using this.2.1, hb⟩
  have r3 := ind_quote (out := out ++ [34] ++ raw) (q := true) (lv := lv) (by omega) h.2.2.1 hp1' hp2'
  have := (r1.trans r2).trans r3
  simp only [List.append_assoc, List.cons_append, List.nil_append] at this
  exact this.to (by omega)

theorem ind_prints : Prints json (indBody json) noTrailBs pretty (fun d out => ⟨out, false, (d : Int)⟩) where
  tok := by
    intro i d out c hc ht
    have := tokByte_ne ht
    simp [indBody, hc, this, space_eq]
  ws := by
    intro i d out c hc ht
    have := isWs_ne ht
    simp [indBody, hc, this, space_eq, ht]
  comma := by
    intro i d out hc
    have : createTabs (d : Int) = .ok (newline d).tail := by rw [createTabs, if_neg (by omega)]; simp [newline]
    simp [indBody, hc, space, pretty, newline, this]
  colon := by intro i d out hc; simp [indBody, hc, space, pretty]
  opn := by
    intro i d out c hc h
    have : createTabs ((d : Int) + 1) = .ok (newline (d + 1)).tail := by rw [createTabs, if_neg (by omega)]; simp [newline]
    rcases h with rfl | rfl <;> simp [indBody, hc, space, pretty, newline, this]
  cls := by
    intro i d out c hc h
    have : createTabs (((d + 1 : Nat) : Int) - 1) = .ok (newline d).tail := by
      rw [createTabs, if_neg (by omega), newline]; simp only [List.tail_cons]; congr 2; omega
    rcases h with rfl | rfl <;> simp only [indBody, hc, this] <;> simp [space, pretty, newline] <;> omega
  str := by intro i d out raw h hok hq hp; exact ind_str h hok hq hp

end ind

mutual
theorem emit_strip (P : Style) (d : Nat) : ∀ v : Json, emit P d v.strip = emit P d v
  | .lit t => by simp [emit, Json.strip]
  | .str t => by simp [emit, Json.strip]
  | .arr g es => by rw [Json.strip, emit, emit, emitElems_strip P (d + 1) es]
  | .obj g ms => by rw [Json.strip, emit, emit, emitMembers_strip P (d + 1) ms]
theorem emitElems_strip (P : Style) (d : Nat) : ∀ es : List (Elem Json), emitElems P d (stripElems es) = emitElems P d es
  | [] => by simp [stripElems]
  | ⟨l, v, r⟩ :: es => by
    rw [stripElems, emitElems, emitElems, emit_strip P d v, emitElems_strip P d es]
    cases es <;> simp [stripElems]
theorem emitMembers_strip (P : Style) (d : Nat) : ∀ ms : List (Member Json), emitMembers P d (stripMembers ms) = emitMembers P d ms
  | [] => by simp [stripMembers]
  | ⟨l, k, m, l2, v, r⟩ :: ms => by
    rw [stripMembers, emitMembers, emitMembers, emit_strip P d v, emitMembers_strip P d ms]
    cases ms <;> simp [stripMembers]
end

theorem indentElems_ne {d : Nat} {e : Elem Json} {es : List (Elem Json)} : indentElems d (e :: es) ≠ [] := by
  cases e; cases es <;> simp [indentElems]
theorem indentMembers_ne {d : Nat} {e : Member Json} {es : List (Member Json)} : indentMembers d (e :: es) ≠ [] := by
  cases e; cases es <;> simp [indentMembers]

mutual
theorem emit_pretty (d : Nat) : ∀ v : Json, emit pretty d v = (v.indent d).render
  | .lit t => by simp [emit, Json.indent]
  | .str t => by simp [emit, Json.indent]
  | .arr g es => by
    rw [emit, Json.indent, render_arr]
    cases es with
    | nil => simp [indentElems, emitElems, pretty]
    | cons e es =>
      rw [if_neg (by simp [indentElems_ne]), ← emitElems_pretty d (e :: es) (by simp)]
      simp [pretty]
  | .obj g ms => by
    rw [emit, Json.indent, render_obj]
    cases ms with
    | nil => simp [indentMembers, emitMembers, pretty]
    | cons e es =>
      rw [if_neg (by simp [indentMembers_ne]), ← emitMembers_pretty d (e :: es) (by simp)]
      simp [pretty]
theorem emitElems_pretty (d : Nat) : ∀ es : List (Elem Json), es ≠ [] →
    newline (d + 1) ++ (emitElems pretty (d + 1) es ++ newline d) = renderElems (indentElems d es)
  | [], h => (h rfl).elim
  | [⟨l, v, r⟩], _ => by simp [emitElems, indentElems, renderElems, emit_pretty (d + 1) v]
  | ⟨l, v, r⟩ :: e :: es, _ => by
    rw [indentElems, renderElems, ← emitElems_pretty d (e :: es) (by simp), emitElems, emit_pretty (d + 1) v,
      if_neg (by simp)]
    simp [pretty, indentElems_ne]
theorem emitMembers_pretty (d : Nat) : ∀ ms : List (Member Json), ms ≠ [] →
    newline (d + 1) ++ (emitMembers pretty (d + 1) ms ++ newline d) = renderMembers (indentMembers d ms)
  | [], h => (h rfl).elim
  | [⟨l, k, m, l2, v, r⟩], _ => by
    rw [emitMembers, emit_pretty (d + 1) v]; simp [indentMembers, renderMembers, pretty]
  | ⟨l, k, m, l2, v, r⟩ :: e :: es, _ => by
    rw [indentMembers, renderMembers, ← emitMembers_pretty d (e :: es) (by simp), emitMembers, emit_pretty (d + 1) v,
      if_neg (by simp)]
    simp [pretty, indentMembers_ne]
end

/-! ### strip and indent keep the tree -/

mutual
theorem strip_strip : ∀ v : Json, v.strip.strip = v.strip
  | .lit t => by simp [Json.strip]
  | .str t => by simp [Json.strip]
  | .arr g es => by rw [Json.strip, Json.strip, stripElems_strip es]
  | .obj g ms => by rw [Json.strip, Json.strip, stripMembers_strip ms]
theorem stripElems_strip : ∀ es : List (Elem Json), stripElems (stripElems es) = stripElems es
  | [] => by simp [stripElems]
  | ⟨l, v, r⟩ :: es => by rw [stripElems, stripElems, strip_strip v, stripElems_strip es]
theorem stripMembers_strip : ∀ ms : List (Member Json), stripMembers (stripMembers ms) = stripMembers ms
  | [] => by simp [stripMembers]
  | ⟨l, k, m, l2, v, r⟩ :: ms => by rw [stripMembers, stripMembers, strip_strip v, stripMembers_strip ms]
end

mutual
theorem strip_wf : ∀ v : Json, v.wf → v.strip.wf
  | .lit t => by simp [Json.strip]
  | .str t => by simp [Json.strip]
  | .arr g es => by
    intro h
    simp only [Json.wf, Json.strip, Bool.and_eq_true] at h ⊢
    exact ⟨rfl, stripElems_wf es h.2⟩
  | .obj g ms => by
    intro h
    simp only [Json.wf, Json.strip, Bool.and_eq_true] at h ⊢
    exact ⟨rfl, stripMembers_wf ms h.2⟩
theorem stripElems_wf : ∀ es : List (Elem Json), wfElems es → wfElems (stripElems es)
  | [] => by simp [stripElems]
  | ⟨l, v, r⟩ :: es => by
    intro h
    simp only [stripElems, wfElems, Bool.and_eq_true] at h ⊢
    exact ⟨⟨⟨rfl, strip_wf v h.1.1.2⟩, rfl⟩, stripElems_wf es h.2⟩
theorem stripMembers_wf : ∀ ms : List (Member Json), wfMembers ms → wfMembers (stripMembers ms)
  | [] => by simp [stripMembers]
  | ⟨l, k, m, l2, v, r⟩ :: ms => by
    intro h
    simp only [stripMembers, wfMembers, Bool.and_eq_true] at h ⊢
    obtain ⟨⟨⟨⟨⟨⟨w1, w2⟩, w3⟩, w4⟩, w5⟩, w6⟩, w7⟩ := h
    exact ⟨⟨⟨⟨⟨⟨rfl, w2⟩, rfl⟩, rfl⟩, strip_wf v w5⟩, rfl⟩, stripMembers_wf ms w7⟩
end

theorem newline_ws (d : Nat) : Ws (newline d) := by
  rw [newline, ws_cons, Ws, Bool.and_eq_true, List.all_eq_true]
  refine ⟨by decide, ?_⟩
  intro c hc
  rw [List.eq_of_mem_replicate hc]; decide

theorem newline_ws2 (d : Nat) : Ws (newline (d + 1) ++ newline d) := by
  have h1 := newline_ws (d + 1)
  have h2 := newline_ws d
  rw [Ws, List.all_append, Bool.and_eq_true]
  exact ⟨h1, h2⟩

mutual
theorem indent_wf (d : Nat) : ∀ v : Json, v.wf → (v.indent d).wf
  | .lit t => by simp [Json.indent]
  | .str t => by simp [Json.indent]
  | .arr g es => by
    intro h
    simp only [Json.wf, Json.indent, Bool.and_eq_true] at h ⊢
    exact ⟨newline_ws2 _, indentElems_wf d es h.2⟩
  | .obj g ms => by
    intro h
    simp only [Json.wf, Json.indent, Bool.and_eq_true] at h ⊢
    exact ⟨newline_ws2 _, indentMembers_wf d ms h.2⟩
theorem indentElems_wf (d : Nat) : ∀ es : List (Elem Json), wfElems es → wfElems (indentElems d es)
  | [] => by simp [indentElems]
  | [⟨l, v, r⟩] => by
    intro h
    simp only [indentElems, wfElems, Bool.and_eq_true] at h ⊢
    exact ⟨⟨⟨newline_ws _, indent_wf (d + 1) v h.1.1.2⟩, newline_ws _⟩, trivial⟩
  | ⟨l, v, r⟩ :: e :: es => by
    intro h
    rw [wfElems, Bool.and_eq_true, Bool.and_eq_true, Bool.and_eq_true] at h
    rw [indentElems, wfElems, Bool.and_eq_true, Bool.and_eq_true, Bool.and_eq_true]
    exact ⟨⟨⟨newline_ws _, indent_wf (d + 1) v h.1.1.2⟩, rfl⟩, indentElems_wf d (e :: es) h.2⟩
theorem indentMembers_wf (d : Nat) : ∀ ms : List (Member Json), wfMembers ms → wfMembers (indentMembers d ms)
  | [] => by simp [indentMembers]
  | [⟨l, k, m, l2, v, r⟩] => by
    intro h
    simp only [indentMembers, wfMembers, Bool.and_eq_true] at h ⊢
    obtain ⟨⟨⟨⟨⟨⟨w1, w2⟩, w3⟩, w4⟩, w5⟩, w6⟩, w7⟩ := h
    exact ⟨⟨⟨⟨⟨⟨newline_ws _, w2⟩, rfl⟩, by decide⟩, indent_wf (d + 1) v w5⟩, newline_ws _⟩, trivial⟩
  | ⟨l, k, m, l2, v, r⟩ :: e :: es => by
    intro h
    rw [wfMembers] at h
    simp only [Bool.and_eq_true] at h
    rw [indentMembers, wfMembers]
    simp only [Bool.and_eq_true]
    obtain ⟨⟨⟨⟨⟨⟨w1, w2⟩, w3⟩, w4⟩, w5⟩, w6⟩, w7⟩ := h
    exact ⟨⟨⟨⟨⟨⟨newline_ws _, w2⟩, rfl⟩, by decide⟩, indent_wf (d + 1) v w5⟩, rfl⟩, indentMembers_wf d (e :: es) w7⟩
end

mutual
theorem indent_strip (d : Nat) : ∀ v : Json, (v.indent d).strip = v.strip
  | .lit t => by simp [Json.indent]
  | .str t => by simp [Json.indent]
  | .arr g es => by rw [Json.indent, Json.strip, Json.strip, indentElems_strip d es]
  | .obj g ms => by rw [Json.indent, Json.strip, Json.strip, indentMembers_strip d ms]
theorem indentElems_strip (d : Nat) : ∀ es : List (Elem Json), stripElems (indentElems d es) = stripElems es
  | [] => by simp [indentElems]
  | [⟨l, v, r⟩] => by simp [indentElems, stripElems, indent_strip (d + 1) v]
  | ⟨l, v, r⟩ :: e :: es => by
    rw [indentElems, stripElems, stripElems, indent_strip (d + 1) v, indentElems_strip d (e :: es)]
theorem indentMembers_strip (d : Nat) : ∀ ms : List (Member Json), stripMembers (indentMembers d ms) = stripMembers ms
  | [] => by simp [indentMembers]
  | [⟨l, k, m, l2, v, r⟩] => by simp [indentMembers, stripMembers, indent_strip (d + 1) v]
  | ⟨l, k, m, l2, v, r⟩ :: e :: es => by
    rw [indentMembers, stripMembers, stripMembers, indent_strip (d + 1) v, indentMembers_strip d (e :: es)]
end

mutual
theorem allStr_strip (Q : Text → Bool) : ∀ v : Json, v.strip.allStr Q = v.allStr Q
  | .lit t => by simp [Json.strip]
  | .str t => by simp [Json.strip]
  | .arr g es => by rw [Json.strip, Json.allStr, Json.allStr, allStrElems_strip Q es]
  | .obj g ms => by rw [Json.strip, Json.allStr, Json.allStr, allStrMembers_strip Q ms]
theorem allStrElems_strip (Q : Text → Bool) : ∀ es : List (Elem Json), allStrElems Q (stripElems es) = allStrElems Q es
  | [] => by simp [stripElems]
  | ⟨l, v, r⟩ :: es => by rw [stripElems, allStrElems, allStrElems, allStr_strip Q v, allStrElems_strip Q es]
theorem allStrMembers_strip (Q : Text → Bool) : ∀ ms : List (Member Json), allStrMembers Q (stripMembers ms) = allStrMembers Q ms
  | [] => by simp [stripMembers]
  | ⟨l, k, m, l2, v, r⟩ :: ms => by rw [stripMembers, allStrMembers, allStrMembers, allStr_strip Q v, allStrMembers_strip Q ms]
end

theorem indent_ok {d : Doc} (hd : d.wf) (ha : d.root.allStr noTrailBs) (hr : ∀ raw, d.root ≠ .str raw) :
    Indent d.render = .ok (d.root.indent 0).render := by
  obtain ⟨w1, w2, w3⟩ := doc_wf.1 hd
  unfold Indent
  simp only [flatten_ok hd]
  have hs : Seg d.root.strip.render 0 d.root.strip.render := seg_self _
  have := (ind_prints (json := d.root.strip.render)).value d.root.strip (d := 0) (out := []) (strip_wf _ w2)
    (by rw [allStr_strip, ha]) hs (by
      rintro ⟨raw, e⟩
      cases hv : d.root <;> simp [hv, Json.strip] at e
      exact (hr _ hv).elim)
  unfold Run at this
  rw [show (⟨[], false, ((0 : Nat) : Int)⟩ : IndSt) = ⟨[], false, 0⟩ from rfl] at this
  rw [this, forUp_end (by omega), emit_strip, emit_pretty]
  rfl

end Jin
