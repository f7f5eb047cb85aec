import Verif.Proof.Robust
import Verif.Model.Parser
/-!
# Proof.RobustParse — the loop of `pCore` on arbitrary bytes
-/

namespace Jin
open Spec

variable {json : Bytes} {i : Nat} {c : UInt8} {ns : Bool}

/-- `ns` is whether the text starts with whitespace. -/
structure PcInv (json : Bytes) (ns : Bool) (i : Nat) (s : PcSt) : Prop where
  sees : Sees json 0 i s.inQuote (s.braces.length : Int)
  ups : s.ups.length = s.braces.length
  idxs : s.idxs.length = s.braces.length + 1
  braces : ∀ b ∈ s.braces, b ≤ i
  val : s.valStart ≤ i
  fresh : (upto json 0 i).closed = false → s.stop = 0 ∧ (s.inQuote = false → (0 < s.start ↔ ns = true))
  key : (upto json 0 i).closed = true → s.inQuote = false → s.start ≤ s.stop
  inq : s.inQuote = true → s.start ≤ i
  stop : s.stop ≤ i
  depth : ∀ j, j ≤ i → 0 ≤ (upto json 0 j).depth
  named : ns = true → ∀ b, b < i → json[b]? = some 58 → (upto json 0 b).inStr = false → (upto json 0 b).closed = true

/-- What makes the loop end. -/
def PcGood (json : Bytes) (ns : Bool) : Prop :=
  (∀ j, j ≤ json.length → 0 ≤ (upto json 0 j).depth) ∧
    (ns = true → ∀ b, json[b]? = some 58 → (upto json 0 b).inStr = false → (upto json 0 b).closed = true)

theorem PcInv.end_ (hi : json.length ≤ i) {s : PcSt} (h : PcInv json ns i s) : PcGood json ns :=
  ⟨fun j hj => h.depth j (by omega), fun hn b hb => h.named hn b (by have := lt_of_getElem? hb; omega) hb⟩

theorem depth_succ (h : ∀ j, j ≤ i → 0 ≤ (upto json 0 j).depth) (h' : 0 ≤ (upto json 0 (i + 1)).depth) :
    ∀ j, j ≤ i + 1 → 0 ≤ (upto json 0 j).depth := fun j hj => by
  by_cases hji : j = i + 1
  · subst hji; exact h'
  · exact h j (by omega)

theorem named_succ (h : ns = true → ∀ b, b < i → json[b]? = some 58 → (upto json 0 b).inStr = false → (upto json 0 b).closed = true)
    (h' : ns = true → json[i]? = some 58 → (upto json 0 i).inStr = false → (upto json 0 i).closed = true) :
    ns = true → ∀ b, b < i + 1 → json[b]? = some 58 → (upto json 0 b).inStr = false → (upto json 0 b).closed = true := fun hn b hb => by
  by_cases hbi : b = i
  · subst hbi; exact h' hn
  · exact h hn b (by omega)

/-- A byte after which the loop knows the same. -/
theorem PcInv.keep {s s' : PcSt} (h : PcInv json ns i s) (hs : Sees json 0 (i + 1) s'.inQuote (s'.braces.length : Int))
    (hcl : (upto json 0 (i + 1)).closed = (upto json 0 i).closed) (hq : s'.inQuote = s.inQuote) (hst : s'.start = s.start) (hsp : s'.stop = s.stop)
    (hups : s'.ups.length = s'.braces.length) (hid : s'.idxs.length = s'.braces.length + 1) (hb : ∀ b ∈ s'.braces, b ≤ i + 1)
    (hv : s'.valStart ≤ i + 1)
    (hn : ns = true → json[i]? = some 58 → (upto json 0 i).inStr = false → (upto json 0 i).closed = true) : PcInv json ns (i + 1) s' :=
  ⟨hs, hups, hid, hb, hv, by rw [hcl, hq, hst, hsp]; exact h.fresh, by rw [hcl, hq, hst, hsp]; exact h.key,
    by rw [hq, hst]; intro h'; have := h.inq h'; omega, by rw [hsp]; have := h.stop; omega,
    depth_succ h.depth (by rw [hs.lev]; omega), named_succ h.named hn⟩

theorem pc_loop {s : PcSt} (h : PcInv json ns i s) :
    After (fun _ => PcGood json ns) (fun _ => ¬ PcGood json ns) (forUp json.length (pcBody json) i s) := by
  refine forUp_inv (P := fun i s => PcInv json ns i s) ?_ (fun i s hi h => h.end_ hi) h
  intro i s hi h
  obtain ⟨c, hc⟩ := getElem_ex hi
  have no58 : c ≠ 58 → ns = true → json[i]? = some 58 → (upto json 0 i).inStr = false → (upto json 0 i).closed = true := fun hne _ h58 => by
    rw [hc] at h58; injection h58 with h58; exact absurd h58 hne
  have hbr : ∀ b ∈ s.braces, b ≤ i + 1 := fun b hb => Nat.le_succ_of_le (h.braces b hb)
  have str : s.inQuote = true → c ≠ 34 → PcInv json ns (i + 1) s := fun hq hne => by
    have hs := h.sees
    rw [hq] at hs
    obtain ⟨h1, h2⟩ := hs.inside hc (.inl hne)
    refine h.keep (by rw [hq]; exact h1) h2 rfl rfl rfl h.ups h.idxs hbr (Nat.le_succ_of_le h.val) (fun _ _ hx => ?_)
    rw [hs.str] at hx; cases hx
  have val : ∃ v, slice json (s.valStart : Int) (i : Int) = .ok v := ⟨_, slice_range h.val (by omega)⟩
  unfold pcBody
  simp only [hc]
  split
  · rename_i hj
    obtain ⟨h1, h2, h3, h4, h5, h6, h7⟩ := outside_ne hj
    by_cases hq : s.inQuote = true
    · exact str hq h1
    · have hq : s.inQuote = false := by simpa using hq
      have hs := h.sees
      rw [hq] at hs
      obtain ⟨o1, o2⟩ := hs.outside hc h1
      refine h.keep (by rw [hq]; simpa [h2, h3, h4, h5] using o1) o2 rfl rfl rfl h.ups h.idxs hbr (Nat.le_succ_of_le h.val) (no58 (h7 rfl))
  · split
    · rename_i h34
      have h34 : c = 34 := by simpa using h34
      subst h34
      have hn := no58 (by decide)
      split
      · rename_i hq
        have hs := h.sees
        rw [hq] at hs
        rcases hs.quote hc with ⟨h1, h2, h3⟩ | ⟨h1, h2, h3⟩
        · rw [h1]
          refine ⟨h2, h.ups, h.idxs, hbr, Nat.le_succ_of_le h.val, fun hx => (by rw [h3] at hx; cases hx), fun _ _ => h.inq hq, (fun hx => by cases hx),
            Nat.le_succ _, depth_succ h.depth (by rw [h2.lev]; omega), named_succ h.named hn⟩
        · rw [h1]
          exact h.keep (by rw [hq]; exact h2) h3 rfl rfl rfl h.ups h.idxs hbr (Nat.le_succ_of_le h.val) hn
      · rename_i hq
        have hq : s.inQuote = false := by simpa using hq
        have hs := h.sees
        rw [hq] at hs
        obtain ⟨h2, h3⟩ := hs.opens hc
        exact ⟨h2, h.ups, h.idxs, hbr, Nat.le_succ_of_le h.val, fun hx => ⟨(h.fresh (by rw [← h3]; exact hx)).1, (fun hx => by cases hx)⟩,
          (fun _ hx => by cases hx), fun _ => Nat.le_refl _, Nat.le_succ_of_le h.stop, depth_succ h.depth (by rw [h2.lev]; omega), named_succ h.named hn⟩
    · rename_i h34
      have h34 : c ≠ 34 := by simpa using h34
      split
      · exact str (by assumption) h34
      · rename_i hq
        have hq : s.inQuote = false := by simpa using hq
        have hs := h.sees
        rw [hq] at hs
        obtain ⟨o1, o2⟩ := hs.outside hc h34
        obtain ⟨n, idxs, hidx⟩ : ∃ n l, s.idxs = n :: l := by
          cases hx : s.idxs with
          | nil => have := h.idxs; rw [hx] at this; simp at this
          | cons n l => exact ⟨n, l, rfl⟩
        have hil : idxs.length = s.braces.length := by have := h.idxs; rw [hidx] at this; simpa using this
        split
        · rename_i hop
          simp only [Bool.or_eq_true, beq_iff_eq] at hop
          rw [if_pos hop] at o1
          rw [hidx]
          simp only
          refine h.keep (by simp only; rw [hq, List.length_cons]; exact o1) o2 rfl rfl rfl (by simp [h.ups]) (by simp [hil]) (fun b hb => ?_) (Nat.le_refl _)
            (no58 (by rcases hop with rfl | rfl <;> decide))
          simp only [List.mem_cons] at hb
          rcases hb with rfl | hb
          · exact Nat.le_succ _
          · exact hbr b hb
        · rename_i hop
          simp only [Bool.or_eq_true, beq_iff_eq, not_or] at hop
          split
          · rename_i hcl
            simp only [Bool.or_eq_true, beq_iff_eq] at hcl
            rw [if_neg (by simp [hop]), if_pos hcl] at o1
            rw [hidx]
            simp only
            obtain ⟨v, hv⟩ := val
            cases hbs : s.braces with
            | nil =>
              -- nothing is open
              have bad : ¬ PcGood json ns := fun hg => by
                have := hg.1 (i + 1) (by omega)
                rw [o1.lev, hbs] at this
                simp at this
              split <;> first | exact bad | (rename_i heq _; cases heq) | contradiction
            | cons b braces =>
              obtain ⟨up, ups, hups⟩ : ∃ n l, s.ups = n :: l := by
                cases hx : s.ups with
                | nil => have := h.ups; rw [hx, hbs] at this; simp at this
                | cons n l => exact ⟨n, l, rfl⟩
              have hbi : b ≤ i := h.braces b (by rw [hbs]; simp)
              have hw : ∃ w, slice json (b : Int) ((i : Int) + 1) = .ok w := by
                rw [show ((i : Int) + 1) = ((i + 1 : Nat) : Int) by omega]
                exact ⟨_, slice_range (by omega) (by omega)⟩
              obtain ⟨w, hw⟩ := hw
              have next : ∀ (cur : Node) (vs : Nat), vs ≤ i + 1 → PcInv json ns (i + 1)
                  { s with cur := cur, ups := ups, braces := braces, idxs := idxs, valStart := vs, last := c } := fun cur vs hvs => by
                refine h.keep ?_ o2 rfl rfl rfl ?_ ?_ ?_ hvs (no58 (by rcases hcl with rfl | rfl <;> decide))
                · simp only; rw [hq]
                  rw [hbs] at o1
                  have e : ((braces.length : Nat) : Int) = (((b :: braces).length : Nat) : Int) - 1 := by simp
                  rw [e]; exact o1
                · have := h.ups; rw [hups, hbs] at this; simpa using this
                · rw [hbs] at hil; simpa using hil
                · intro x hx; exact hbr x (by rw [hbs]; simp only [List.mem_cons]; exact .inr hx)
              rw [hups]
              simp only [hv, Out.bind_ok]
              by_cases h58 : s.last = 58
              · simp only [h58, beq_self_eq_true, if_true, Out.pure_eq, hw]
                exact next _ _ (Nat.le_succ_of_le h.val)
              · have e1 : (s.last == 58) = false := by simpa using h58
                by_cases h44 : s.last = 44
                · simp only [h44, show ((44 : UInt8) == 58) = false by decide, Bool.false_eq_true, if_false, beq_self_eq_true, if_true, Out.pure_eq, hw]
                  exact next _ _ (Nat.le_refl _)
                · have e2 : (s.last == 44) = false := by simpa using h44
                  simp only [e1, e2, Bool.false_eq_true, if_false, Out.pure_eq, hw]
                  exact next _ _ (Nat.le_succ_of_le h.val)
          · rename_i hcl
            simp only [Bool.or_eq_true, beq_iff_eq, not_or] at hcl
            rw [if_neg (by simp [hop]), if_neg (by simp [hcl])] at o1
            split
            · rename_i h58
              have h58 : c = 58 := by simpa using h58
              subst h58
              split
              · rename_i k hk
                refine h.keep (by simp only; rw [hq]; exact o1) o2 rfl rfl rfl h.ups h.idxs hbr (Nat.le_refl _) (fun hn _ _ => ?_)
                cases hclo : (upto json 0 i).closed with
                | true => rfl
                | false =>
                  obtain ⟨f1, f2⟩ := h.fresh hclo
                  have f3 := (f2 hq).2 hn
                  exfalso
                  unfold slice at hk
                  rw [f1, if_neg (by omega)] at hk
                  cases hk
              · rename_i hne
                intro hg
                have hle : s.start ≤ s.stop := by
                  cases hclo : (upto json 0 i).closed with
                  | true => exact h.key hclo hq
                  | false =>
                    obtain ⟨f1, f2⟩ := h.fresh hclo
                    cases hn : ns with
                    | true => have := hg.2 hn i hc hs.str; rw [hclo] at this; cases this
                    | false =>
                      have : ¬ 0 < s.start := fun hx => by have := (f2 hq).1 hx; rw [hn] at this; cases this
                      omega
                exact hne _ (slice_range hle (by have := h.stop; omega))
            · rename_i h58
              have h58 : c ≠ 58 := by simpa using h58
              split
              · rename_i h44
                rw [hidx]
                simp only
                obtain ⟨v, hv⟩ := val
                have next : ∀ (cur : Node), PcInv json ns (i + 1)
                    { s with cur := cur, idxs := (n + 1) :: idxs, valStart := i + 1, last := 44 } := fun cur => by
                  exact h.keep (by simp only; rw [hq]; exact o1) o2 rfl rfl rfl h.ups (by simp [hil]) hbr (Nat.le_refl _) (no58 h58)
                simp only [hv, Out.bind_ok]
                by_cases h58' : s.last = 58
                · simp only [h58', beq_self_eq_true, if_true, Out.pure_eq]
                  exact next _
                · have e1 : (s.last == 58) = false := by simpa using h58'
                  by_cases h44' : (s.last == 44 || s.last == 91) = true
                  · simp only [e1, h44', Bool.false_eq_true, if_false, if_true, Out.pure_eq]
                    exact next _
                  · have e2 : (s.last == 44 || s.last == 91) = false := by simpa using h44'
                    simp only [e1, e2, Bool.false_eq_true, if_false, Out.pure_eq]
                    exact next _
              · exact h.keep (by rw [hq]; exact o1) o2 rfl rfl rfl h.ups h.idxs hbr (Nat.le_succ_of_le h.val) (no58 h58)

end Jin
