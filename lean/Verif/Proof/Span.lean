import Verif.Proof.AddIns
import Verif.Proof.Iterate
/-!
# Proof.Span — `getStartEnd`, and the functions built on it: `Length`, `IsEmpty`, `GetMap`
-/

namespace Jin
open Spec

theorem skipSpacesDown_ws {json : Bytes} {c : UInt8} {i : Nat} (hc : json[i]? = some c) (hs : space c = false) (w : Bytes) :
    Seg json (i + 1) w → Ws w → skipSpacesDown json (i + 1 + w.length) = some i := by
  induction hn : w.length generalizing w with
  | zero => intro _ _; simp only [skipSpacesDown, hc, hs]; rfl
  | succ n ih =>
    intro h hw
    rcases List.eq_nil_or_concat w with rfl | ⟨w, b, rfl⟩
    · simp at hn
    · rw [List.concat_eq_append] at *
      simp only [List.length_append, List.length_cons, List.length_nil, Nat.zero_add, Nat.add_right_cancel_iff] at hn
      rw [seg_append, seg_cons] at h
      simp only [Ws, List.all_append, List.all_cons, List.all_nil, Bool.and_true, Bool.and_eq_true] at hw
      have hb := h.2.1
      rw [hn] at hb
      rw [← Nat.add_assoc, skipSpacesDown, hb]
      simp only [space_eq, hw.2, if_true]
      exact ih w hn h.1 (by simpa [Ws] using hw.1)

/-- The span of a container: all of it for a path, without its last byte for the root. -/
theorem getStartEnd_ok {d : Doc} {p : List Text} {w : Json} (hd : d.wf) (h : d.get? p = some w) (hc : w.isContainer) :
    ∃ A B, d.render = A ++ (w.render ++ B) ∧ w.wf ∧
      getStartEnd d.render p = .ok (A.length, A.length + w.render.length - if p = [] then 1 else 0) ∧
      emptySpan d.render p = .ok (A.length, ((A.length + w.render.length - 1 : Nat) : Int)) := by
  obtain ⟨f, A, B, hf, hv, hA, h1, h2, hw⟩ := doc_around hd h
  have hr := render_container hc
  have hlen : w.render.length = (inner w).length + 2 := by rw [hr]; simp
  refine ⟨A, B, h1, hw, ?_⟩
  have hl : ¬ d.render.length < 2 := by rw [h1]; simp; omega
  by_cases hp : p = []
  · subst hp
    simp only [findAt, Option.some.injEq] at hf
    subst hf
    simp only [Nat.add_zero] at hA hv
    subst hv
    have e0 : d.lead ++ (d.root.render ++ d.trail) = A ++ (d.root.render ++ B) := h1
    obtain ⟨e1, e2⟩ := List.append_inj e0 (by simpa using hA.symm)
    have e3 := List.append_cancel_left e2
    subst e1
    rw [← e3] at h1
    have hs : Seg d.render 0 (d.lead ++ ((opnOf d.root :: inner d.root) ++ (clsOf d.root :: d.trail))) := by
      have := seg_self d.render
      conv at this => arg 3; rw [h1, hr]
      simpa using this
    rw [seg_append, seg_append, seg_cons (c := clsOf d.root)] at hs
    simp only [Nat.zero_add, List.length_cons] at hs
    obtain ⟨s0, s1, s2, s3⟩ := hs
    rw [seg_cons] at s1
    have k1 : skipSpaces d.render 0 = some d.lead.length := by
      have := skipSpaces_ws (i := 0) s0 (doc_wf.1 hd).1 (c := opnOf d.root) (by simpa using s1.1) (by
        cases hdr : d.root <;> simp [hdr, Json.isContainer] at hc <;> rfl)
      simpa using this
    have k2 := skipSpacesDown_ws s2 (by cases hdr : d.root <;> simp [hdr, Json.isContainer] at hc <;> rfl) d.trail s3 (doc_wf.1 hd).2.2
    have k3 : d.lead.length + ((inner d.root).length + 1) + 1 + d.trail.length = d.render.length := by rw [h1]; simp; omega
    rw [k3] at k2
    constructor
    · rw [getStartEnd, if_neg hl]
      simp only [List.length_nil, bne_self_eq_false, Bool.false_eq_true, if_false, k1, k2, if_true]
      congr 2; omega
    · simp only [emptySpan, List.length_nil, beq_self_eq_true, if_true, k1, k2]
      congr 3; omega
  · have hp' : p.length ≠ 0 := by simpa using hp
    have hspan : span (d.lead.length + f.pos) f.val = (A.length, A.length + w.render.length) := by
      rw [hv, ← hA]
      cases w <;> simp [Json.isContainer] at hc <;> rfl
    have hcore := core_found hd hp hf false
    simp only [Bool.false_eq_true, if_false, hspan] at hcore
    constructor
    · rw [getStartEnd, if_neg hl, if_pos (by simpa using hp), hcore, if_neg hp]; rfl
    · rw [emptySpan, if_neg (by simpa using hp), hcore]
      simp only [Out.map, Out.ok.injEq, Prod.mk.injEq, true_and]
      omega

/-! ### Length -/

theorem forUp_congr {σ ρ : Type} {hi : Nat} {b1 b2 : Nat → σ → Ctl σ ρ} (h : ∀ i s, i < hi → b1 i s = b2 i s) (i : Nat) (s : σ) :
    forUp hi b1 i s = forUp hi b2 i s := by
  fun_induction forUp hi b2 i s <;> rw [forUp.eq_def] <;> simp_all
  intro hlt; omega

theorem quoteScan_take (json : Bytes) (n i : Nat) : ∀ m, m ≤ n → quoteScan (json.take n) i m = quoteScan json i m
  | 0, _ => rfl
  | m + 1, h => by
    rw [quoteScan, quoteScan, quoteScan_take json n i m (by omega), List.getElem?_take_of_lt (by omega)]

theorem lenBody_take (json : Bytes) {n i : Nat} (h : i < n) (s : LenSt) : lenBody json i s = lenBody (json.take n) i s := by
  unfold lenBody
  rw [quoteScan_take json n i i (by omega), List.getElem?_take_of_lt h]

theorem renderEnt_ne {x : REnt} {xs : List REnt} : renderEnt ((x :: xs).map REnt.ent) =
    x.l ++ (x.e.text ++ (x.r ++ (if xs.isEmpty then [] else 44 :: renderEnt (xs.map REnt.ent)))) := by
  rw [List.map_cons, renderEnt_cons, tailEnt, List.isEmpty_map]; rfl

section
variable {json : Bytes}

theorem len_entry {x : REnt} (hl : Ws x.l) (hr : Ws x.r) (hx : x.e.ok) {i n : Nat} (h : Seg json i (x.l ++ (x.e.text ++ x.r)))
    (hp : PrevOk json i) :
    Run json (lenBody json) i ⟨n, 1, false⟩ (i + (x.l ++ (x.e.text ++ x.r)).length) ⟨n, 1, false⟩ := by
  obtain ⟨l, e, r⟩ := x
  have H := len_skips (json := json) n 1 (by omega)
  cases e with
  | elem v =>
    obtain ⟨s, h1, rfl⟩ := H.padded hl hx hr (d := 0) h hp rfl
    exact h1
  | member k m l2 v =>
    obtain ⟨hk, hm, hl2, hv⟩ := hx
    have e : l ++ ((Entry.member k m l2 v).text ++ r) = l ++ ((34 :: (k ++ [34])) ++ (m ++ ([58] ++ (l2 ++ (v.render ++ r))))) := by
      simp [Entry.text]
    rw [e] at h
    simp only [] at *
    rw [e]
    rw [seg_append, seg_append, seg_append, seg_append, seg_cons (c := 58)] at h
    obtain ⟨h1, h2, h3, ⟨h4, -⟩, h5⟩ := h
    obtain ⟨s1, r1, rfl⟩ := H.ws hl h1 (d := 0) rfl
    have p1 := prevOk_ws h1 hl hp
    obtain ⟨s2, r2, rfl⟩ := H.str (d := 0) h2 hk p1 rfl
    obtain ⟨s3, r3, rfl⟩ := H.ws hm h3 (d := 0) rfl
    have r4 : Run json (lenBody json) _ ⟨n, 1, false⟩ _ ⟨n, 1, false⟩ := Run.next h4 (by rw [lenBody, h4]; rfl)
    obtain ⟨s5, r5, rfl⟩ := H.padded hl2 hv hr (d := 0) h5 (prevOk_succ h4 (by decide)) rfl
    have key : i + l.length + (k.length + 2) + m.length + 1 + (l2 ++ (v.render ++ r)).length =
        i + (l ++ (34 :: (k ++ [34]) ++ (m ++ ([58] ++ (l2 ++ (v.render ++ r)))))).length := by
      simp; omega
    have q2 : (34 :: (k ++ [34])).length = k.length + 2 := by simp
    rw [q2] at r3 r4 r5
    rw [List.length_singleton] at r5
    exact (((r1.trans r2).trans r3).trans (r4.trans r5)).to key

theorem len_entries : ∀ (xs : List REnt) {i n : Nat}, (∀ x ∈ xs, Ws x.l ∧ Ws x.r ∧ x.e.ok) →
    Seg json i (renderEnt (xs.map REnt.ent)) → PrevOk json i →
    Run json (lenBody json) i ⟨n, 1, false⟩ (i + (renderEnt (xs.map REnt.ent)).length) ⟨n + (xs.length - 1), 1, false⟩
  | [], i, n, _, _, _ => Run.refl
  | x :: xs, i, n, hx, h, hp => by
    obtain ⟨h1, h2, h3⟩ := hx x List.mem_cons_self
    have e : renderEnt ((x :: xs).map REnt.ent) =
        (x.l ++ (x.e.text ++ x.r)) ++ (if xs.isEmpty then [] else 44 :: renderEnt (xs.map REnt.ent)) := by
      rw [renderEnt_ne]; simp
    rw [e] at h ⊢
    rw [seg_append] at h
    have r1 := len_entry h1 h2 h3 (n := n) h.1 hp
    cases xs with
    | nil => simpa using r1
    | cons y ys =>
      have h2 := h.2
      simp only [List.isEmpty_cons, Bool.false_eq_true, if_false] at h2 ⊢
      rw [seg_cons] at h2
      have r2 : Run json (lenBody json) _ ⟨n, 1, false⟩ _ ⟨n + 1, 1, false⟩ := Run.next h2.1 (by rw [lenBody, h2.1]; rfl)
      have r3 := len_entries (y :: ys) (n := n + 1) (fun x hx' => hx x (List.mem_cons_of_mem _ hx')) h2.2 (prevOk_succ h2.1 (by decide))
      have e2 : n + 1 + ((y :: ys).length - 1) = n + ((x :: y :: ys).length - 1) := by simp; omega
      rw [e2] at r3
      refine ((r1.trans r2).trans r3).to ?_
      simp only [List.length_append, List.length_cons]
      omega

/-- The loop of `Length` over the inside of a container. -/
theorem len_inner {w : Json} (hc : w.isContainer) (hw : w.wf) {i : Nat} (h : Seg json i (opnOf w :: inner w)) :
    Run json (lenBody json) i ⟨0, 0, false⟩ (i + (1 + (inner w).length)) ⟨(rents w).length - 1, 1, false⟩ := by
  rw [seg_cons] at h
  have ho : opnOf w = 91 ∨ opnOf w = 123 := by cases w <;> simp [Json.isContainer] at hc <;> simp [opnOf]
  have r1 : Run json (lenBody json) i ⟨0, 0, false⟩ (i + 1) ⟨0, 1, false⟩ := by
    refine Run.next h.1 ?_
    rw [lenBody, h.1]
    rcases ho with e | e <;> rw [e] <;> rfl
  have hp : PrevOk json (i + 1) := prevOk_succ h.1 (by rcases ho with e | e <;> rw [e] <;> decide)
  have h2 := h.2
  unfold inner at h2 ⊢
  rw [rents_ents, List.isEmpty_map] at h2 ⊢
  by_cases he : (rents w).isEmpty
  · rw [if_pos he] at h2 ⊢
    rw [List.isEmpty_iff] at he
    obtain ⟨s, r2, rfl⟩ := (len_skips (json := json) 0 1 (by omega)).ws ((wf_rents hc).1 hw).1 h2 (d := 0) rfl
    rw [he]
    exact (r1.trans r2).to (by omega)
  · rw [if_neg he] at h2 ⊢
    have := len_entries (rents w) (n := 0) ((wf_rents hc).1 hw).2 h2 hp
    rw [Nat.zero_add] at this
    exact (r1.trans this).to (by omega)

end

theorem size_rents (w : Json) : w.size = (rents w).length := by cases w <;> simp [Json.size, rents]

theorem text_first {e : Entry} (h : e.ok) : ∃ c t, e.text = c :: t ∧ isWs c = false := by
  cases e with
  | elem v =>
    obtain ⟨c, t, hv⟩ := List.exists_cons_of_ne_nil (render_ne_nil h)
    refine ⟨c, t, hv, ?_⟩
    have h1 := seg_self v.render
    have := h1.first h
    rw [hv] at this
    simp at this
    rw [this]
    exact first_ns h
  | member k m l2 v => exact ⟨_, _, rfl, by decide⟩

/-- The one entry of a container that holds one byte only. -/
def tiny (w : Json) : Bool :=
  match rents w with
  | [x] => x.e.text.length == 1 && x.r.isEmpty
  | _ => false

/-- The search for a byte inside the brackets, up to the last byte `k = 0` or before it `k = 1`. -/
theorem firstNS_inner {json : Bytes} {w : Json} (hc : w.isContainer) (hw : w.wf) {i : Nat} (h : Seg json i (opnOf w :: inner w))
    {k : Nat} (hk : k ≤ 1) (hn : (rents w).length ≤ 1) :
    (firstNS json (i + 1) (i + 1 + (inner w).length - k)).isSome = (!(rents w).isEmpty && !(k == 1 && tiny w)) := by
  rw [seg_cons] at h
  have hin : inner w = if (rents w).isEmpty then gapOf w else renderEnt ((rents w).map REnt.ent) := by
    unfold inner; rw [rents_ents, List.isEmpty_map]
  have hwf := (wf_rents hc).1 hw
  unfold tiny
  match hr : rents w, hn with
  | [], _ =>
    rw [hr] at hin hwf
    simp only [List.isEmpty_nil, if_true] at hin
    rw [firstNS_none h.2 (by rw [hin]; exact hwf.1) (by omega)]
    rfl
  | [x], _ =>
    rw [hr] at hin hwf
    obtain ⟨h1, h2, h3⟩ := hwf.2 x List.mem_cons_self
    simp only [List.isEmpty_cons, Bool.false_eq_true, if_false, renderEnt_ne, List.isEmpty_nil, if_true, List.append_nil] at hin
    obtain ⟨c, t, e1, e2⟩ := text_first h3
    have hs := h.2
    rw [hin, e1, seg_append, List.cons_append, seg_cons] at hs
    by_cases hb : k = 1 ∧ t = [] ∧ x.r = []
    · obtain ⟨rfl, rfl, hr0⟩ := hb
      rw [firstNS_none hs.1 h1 (by rw [hin, e1, hr0]; simp)]
      simp [e1, hr0]
    · rw [firstNS_ws hs.1 h1 hs.2.1 e2 (by
        rw [hin, e1]
        simp only [List.length_append, List.length_cons]
        by_cases h0 : k = 0
        · omega
        · have : t.length ≠ 0 ∨ x.r.length ≠ 0 := by
            refine Classical.byContradiction fun hcon => ?_
            simp only [ne_eq, List.length_eq_zero_iff, not_or, Classical.not_not] at hcon
            exact hb ⟨by omega, hcon⟩
          omega)]
      have : ¬ (k = 1 ∧ x.e.text.length = 1 ∧ x.r = []) := by
        rintro ⟨a, b, c'⟩
        rw [e1] at b
        exact hb ⟨a, by simpa using b, c'⟩
      simp only [Option.isSome_some, List.isEmpty_cons, Bool.not_false, Bool.true_and]
      by_cases hk0 : k = 1
      · simp only [hk0, true_and] at this
        by_cases hx : x.r = []
        · simp [hk0, hx]; exact fun e => this ⟨e, hx⟩
        · simp [hk0, hx]
      · simp [hk0]

theorem not_root_text {d : Doc} {p : List Text} {w : Json} (hd : d.wf) (h : d.get? p = some w) (hc : w.isContainer)
    (hz : w.size ≠ 0 ∨ p ≠ []) : 2 < d.render.length := by
  have hwl : w.render.length = (inner w).length + 2 := by rw [render_container hc]; simp
  by_cases hp : p = []
  · obtain ⟨f, A, B, -, -, -, h1, -, hw⟩ := doc_around hd h
    rw [h1]
    have hz : w.size ≠ 0 := by simpa [hp] using hz
    have : 0 < (inner w).length := by
      unfold inner
      rw [rents_ents, List.isEmpty_map]
      rw [size_rents] at hz
      match hr : rents w with
      | [] => simp [hr] at hz
      | x :: xs =>
        have := ((wf_rents hc).1 hw).2 x (by rw [hr]; exact List.mem_cons_self)
        obtain ⟨c, t, e1, e2⟩ := text_first this.2.2
        simp only [List.isEmpty_cons, Bool.false_eq_true, if_false, renderEnt_ne, e1, List.length_append, List.length_cons]
        omega
    simp only [List.length_append]
    omega
  · obtain ⟨f, hf, rfl⟩ := findAt_of_get h
    obtain ⟨A, B, a1, a2, -, -, a3, -⟩ := doc_split hd hp hf
    rw [a2]
    simp only [List.length_append]
    omega

theorem length_ok {d : Doc} {p : List Text} {w : Json} (hd : d.wf) (h : d.get? p = some w) (hc : w.isContainer) :
    Length d.render p = .ok (if p = [] ∧ tiny w then 0 else w.size) := by
  obtain ⟨A, B, h1, hw, h2, -⟩ := getStartEnd_ok hd h hc
  have hr := render_container hc
  by_cases ht : 2 < d.render.length
  · have hne : (d.render == bArr || d.render == bObj) = false := by
      rw [Bool.or_eq_false_iff]
      constructor <;> (rw [beq_eq_false_iff_ne]; intro e; rw [e] at ht; exact absurd ht (by decide))
    rw [Length, hne]
    simp only [Bool.false_eq_true, if_false, h2, Out.bind_ok]
    generalize hT : A.length + w.render.length - (if p = [] then 1 else 0) = n
    have hwl : w.render.length = (inner w).length + 2 := by rw [hr]; simp
    have hs : Seg d.render A.length w.render := by
      have := seg_self d.render
      conv at this => arg 3; rw [h1]
      rw [seg_append, seg_append] at this
      simpa using this.2.1
    rw [hr, ← List.cons_append, seg_append] at hs
    have hl : A.length + w.render.length ≤ d.render.length := by rw [h1]; simp
    have hn : n ≤ d.render.length := by omega
    rw [forUp_congr (b2 := lenBody (d.render.take n)) (fun i s hi => lenBody_take _ hi s)]
    have hs' : Seg (d.render.take n) A.length (opnOf w :: inner w) := by
      have e : d.render = (A ++ (opnOf w :: inner w)) ++ (clsOf w :: B) := by rw [h1, hr]; simp
      have : d.render.take n = (A ++ (opnOf w :: inner w)) ++ ((clsOf w :: B).take (n - (A ++ (opnOf w :: inner w)).length)) := by
        rw [e, List.take_append, List.take_of_length_le (l := A ++ opnOf w :: inner w)]
        simp only [List.length_append, List.length_cons]
        split at hT <;> omega
      rw [this]
      have := seg_self ((A ++ (opnOf w :: inner w)) ++ ((clsOf w :: B).take (n - (A ++ (opnOf w :: inner w)).length)))
      rw [seg_append, seg_append] at this
      simpa using this.1.2
    have r1 := len_inner hc hw hs'
    have hTl : (d.render.take n).length = n := by rw [List.length_take]; omega
    unfold Run at r1
    rw [hTl] at r1
    rw [r1]
    have fin : ∃ lv, forUp n (lenBody (d.render.take n)) (A.length + (1 + (inner w).length)) ⟨(rents w).length - 1, 1, false⟩ =
        .done ⟨(rents w).length - 1, lv, false⟩ := by
      by_cases hp : p = []
      · rw [if_pos hp] at hT
        exact ⟨1, forUp_end (by omega)⟩
      · rw [if_neg hp] at hT
        refine ⟨0, ?_⟩
        have hcb : (d.render.take n)[A.length + (1 + (inner w).length)]? = some (clsOf w) := by
          rw [List.getElem?_take_of_lt (by omega)]
          have := hs.2
          rw [seg_cons] at this
          rw [← this.1]; congr 1; simp; omega
        have hcl : clsOf w = 93 ∨ clsOf w = 125 := by cases w <;> simp [Json.isContainer] at hc <;> simp [clsOf]
        rw [forUp_next (s' := ⟨(rents w).length - 1, 0, false⟩) (by omega) (by
          rw [lenBody, hcb]
          rcases hcl with e | e <;> rw [e] <;> rfl), forUp_end (by omega)]
    obtain ⟨lv, fin⟩ := fin
    rw [fin]
    simp only [size_rents]
    by_cases h2 : (rents w).length ≤ 1
    · have hz : (rents w).length - 1 = 0 := by omega
      simp only [hz, beq_self_eq_true, if_true]
      have key : n - 1 = A.length + 1 + (inner w).length - (if p = [] then 1 else 0) := by omega
      have := firstNS_inner hc hw hs.1 (k := if p = [] then 1 else 0) (by split <;> omega) h2
      rw [← key] at this
      have hk : ((if p = [] then 1 else 0 : Nat) == 1) = decide (p = []) := by by_cases hp : p = [] <;> simp [hp]
      rw [hk] at this
      match hr : rents w, h2 with
      | [], _ =>
        rw [hr] at this
        simp only [List.isEmpty_nil, Bool.not_true, Bool.false_and, Option.isSome_eq_false_iff, Option.isNone_iff_eq_none] at this
        rw [this]; simp
      | [x], _ =>
        rw [hr] at this
        simp only [List.isEmpty_cons, Bool.not_false, Bool.true_and] at this
        by_cases hpt : p = [] ∧ tiny w
        · rw [if_pos hpt]
          simp only [hpt.1, hpt.2, decide_true, Bool.and_self, Bool.not_true, Option.isSome_eq_false_iff, Option.isNone_iff_eq_none] at this
          rw [this]
        · rw [if_neg hpt]
          have : (firstNS d.render (A.length + 1) (n - 1)).isSome = true := by
            rw [this]; by_cases hp : p = [] <;> simp_all
          rw [Option.isSome_iff_exists] at this
          obtain ⟨a, ha⟩ := this
          rw [ha]; simp
    · have hz : ((rents w).length - 1 == 0) = false := by simp; omega
      have ht : tiny w = false := by
        unfold tiny
        match hr : rents w with
        | [] => rfl
        | [x] => simp [hr] at h2
        | x :: y :: l => rfl
      rw [ht, hz]
      simp only [Bool.false_eq_true, if_false, and_false, Out.ok.injEq]
      omega
  · have hs : w.size = 0 ∧ p = [] := by
      refine Classical.byContradiction fun hcon => ?_
      exact ht (not_root_text hd h hc (by
        by_cases hz : w.size = 0
        · exact Or.inr fun e => hcon ⟨hz, e⟩
        · exact Or.inl hz))
    have hwl : w.render.length = (inner w).length + 2 := by rw [hr]; simp
    have hlen : A.length + (w.render.length + B.length) ≤ 2 := by rw [h1] at ht; simp only [List.length_append] at ht; omega
    have hA : A = [] := List.length_eq_zero_iff.1 (by omega)
    have hB : B = [] := List.length_eq_zero_iff.1 (by omega)
    have hI : inner w = [] := List.length_eq_zero_iff.1 (by omega)
    have : d.render = [opnOf w, clsOf w] := by rw [h1, hA, hB, hr, hI]; rfl
    have e : (d.render == bArr || d.render == bObj) = true := by
      rw [this]; cases w <;> simp [Json.isContainer] at hc <;> rfl
    rw [Length, e, hs.1]
    simp

/-! ### IsEmpty -/

theorem isEmpty_ok {d : Doc} {p : List Text} {w : Json} (hd : d.wf) (h : d.get? p = some w) (hc : w.isContainer) :
    IsEmpty d.render p = .ok (w.size == 0 || tiny w) := by
  obtain ⟨A, B, h1, hw, -, h2⟩ := getStartEnd_ok hd h hc
  have hr := render_container hc
  have hwl : w.render.length = (inner w).length + 2 := by rw [hr]; simp
  have hs : Seg d.render A.length w.render := by
    have := seg_self d.render
    conv at this => arg 3; rw [h1]
    rw [seg_append, seg_append] at this
    simpa using this.2.1
  rw [hr, ← List.cons_append, seg_append] at hs
  have ha := hs.1
  have hz := hs.2
  rw [seg_cons] at ha hz
  have hl : (d.render.length == 0) = false := by rw [h1, hr]; simp
  have hz1 : d.render[A.length + w.render.length - 1]? = some (clsOf w) := by
    rw [← hz.1]; congr 1; simp; omega
  rw [IsEmpty, hl]
  simp only [Bool.false_eq_true, if_false, h2, Out.bind_ok, idx_nat ha.1, idx_nat hz1]
  have ho : (opnOf w == 91 || opnOf w == 123) = true ∧ (opnOf w + 2 != clsOf w) = false := by
    cases w <;> simp [Json.isContainer] at hc <;> exact ⟨rfl, rfl⟩
  rw [ho.1, ho.2]
  simp only [if_true, Bool.false_eq_true, if_false, Int.toNat_natCast]
  have key : A.length + w.render.length - 1 - 1 = A.length + 1 + (inner w).length - 1 := by omega
  rw [key, size_rents]
  by_cases h2 : (rents w).length ≤ 1
  · have := firstNS_inner hc hw hs.1 (k := 1) (by omega) h2
    cases hf : firstNS d.render (A.length + 1) (A.length + 1 + (inner w).length - 1) with
    | none =>
      rw [hf] at this
      match hr : rents w, h2 with
      | [], _ => rfl
      | [x], _ =>
        rw [hr] at this
        have ht : tiny w = true := by simpa using this
        simp [ht]
    | some a =>
      rw [hf] at this
      match hr : rents w, h2 with
      | [], _ => simp [hr] at this
      | [x], _ =>
        rw [hr] at this
        have ht : tiny w = false := by simpa using this
        simp [ht]
  · have ht : tiny w = false := by
      unfold tiny
      match hr : rents w with
      | [] => rfl
      | [x] => simp [hr] at h2
      | x :: y :: l => rfl
    have hf : ∃ a, firstNS d.render (A.length + 1) (A.length + 1 + (inner w).length - 1) = some a := by
      have hwf := (wf_rents hc).1 hw
      match hr : rents w, h2 with
      | [x], h2 => simp at h2
      | x :: y :: l, _ =>
        rw [hr] at hwf
        obtain ⟨h1, -, h3⟩ := hwf.2 x List.mem_cons_self
        obtain ⟨c, t, e1, e2⟩ := text_first h3
        have hin : inner w = x.l ++ (c :: (t ++ (x.r ++ (44 :: renderEnt ((y :: l).map REnt.ent))))) := by
          unfold inner; rw [rents_ents, hr, renderEnt_ne, e1]; simp
        have hs2 := ha.2
        rw [hin, seg_append, seg_cons] at hs2
        exact ⟨_, firstNS_ws hs2.1 h1 hs2.2.1 e2 (by rw [hin]; simp; omega)⟩
    obtain ⟨a, hf⟩ := hf
    have hn : ((rents w).length == 0) = false := by simp; rintro e; simp [e] at h2
    rw [hf, ht, hn]
    rfl

end Jin
