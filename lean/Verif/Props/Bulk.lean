import Verif.Model.Get
/-!
# Props.Bulk — C35: `GetAll` and `GetAllMap`, on arbitrary bytes
-/

namespace Jin

/-- **C35** `GetAll` succeeds exactly when every `Get` does, with those values in order. -/
theorem C35_getAll_ok (json : Bytes) (path : List Bytes) (keys : List Bytes) : ∀ (vs : List Bytes),
    GetAll json keys path = .ok vs ↔ keys.map (fun k => Get json (path ++ [k])) = vs.map Out.ok := by
  induction keys with
  | nil =>
    intro vs
    simp only [GetAll, Out.ok.injEq, List.map_nil]
    cases vs <;> simp
  | cons k ks ih =>
    intro vs
    rw [GetAll, GetString, List.map_cons]
    cases hg : Get json (path ++ [k]) with
    | err e => cases vs <;> simp
    | panic => cases vs <;> simp
    | ok v =>
      simp only [Out.bind_ok, Out.pure_eq]
      cases hr : GetAll json ks path with
      | ok ws =>
        have := (ih ws).1 hr
        simp only [Out.bind_ok, Out.ok.injEq]
        constructor
        · rintro rfl; rw [this]; rfl
        · cases vs with
          | nil => simp
          | cons x xs =>
            intro h
            simp only [List.map_cons, List.cons.injEq, Out.ok.injEq] at h
            obtain ⟨rfl, h⟩ := h
            have := (ih xs).2 h
            rw [hr] at this; cases this; rfl
      | err e =>
        simp only [Out.bind_err, reduceCtorEq, false_iff]
        cases vs with
        | nil => simp
        | cons x xs =>
          intro h
          simp only [List.map_cons, List.cons.injEq] at h
          have := (ih xs).2 h.2
          rw [hr] at this; cases this
      | panic =>
        simp only [Out.bind_panic, reduceCtorEq, false_iff]
        cases vs with
        | nil => simp
        | cons x xs =>
          intro h
          simp only [List.map_cons, List.cons.injEq] at h
          have := (ih xs).2 h.2
          rw [hr] at this; cases this

/-- The first failing key of a list, with everything before it readable. -/
def FirstError (json : Bytes) (path keys : List Bytes) (e : Err) : Prop :=
  ∃ good k rest, keys = good ++ k :: rest ∧ (∀ g ∈ good, ∃ v, Get json (path ++ [g]) = .ok v) ∧
    Get json (path ++ [k]) = .err e

theorem firstError_cons_ok {json : Bytes} {path ks : List Bytes} {k v : Bytes} {e : Err}
    (hg : Get json (path ++ [k]) = .ok v) : FirstError json path (k :: ks) e ↔ FirstError json path ks e := by
  constructor
  · rintro ⟨good, k', rest, h1, h2, h3⟩
    cases good with
    | nil => simp only [List.nil_append, List.cons.injEq] at h1; rw [← h1.1, hg] at h3; cases h3
    | cons g gs =>
      simp only [List.cons_append, List.cons.injEq] at h1
      exact ⟨gs, k', rest, h1.2, fun x hx => h2 x (by simp [hx]), h3⟩
  · rintro ⟨good, k', rest, rfl, h2, h3⟩
    refine ⟨k :: good, k', rest, rfl, ?_, h3⟩
    intro x hx
    rcases List.mem_cons.1 hx with rfl | hx
    · exact ⟨v, hg⟩
    · exact h2 x hx

theorem firstError_cons_not {json : Bytes} {path ks : List Bytes} {k : Bytes} {e : Err}
    (hg : ∀ v, Get json (path ++ [k]) ≠ .ok v) : FirstError json path (k :: ks) e ↔ Get json (path ++ [k]) = .err e := by
  constructor
  · rintro ⟨good, k', rest, h1, h2, h3⟩
    cases good with
    | nil => simp only [List.nil_append, List.cons.injEq] at h1; rw [h1.1]; exact h3
    | cons g gs =>
      simp only [List.cons_append, List.cons.injEq] at h1
      obtain ⟨v, hv⟩ := h2 g (by simp)
      exact absurd (by rw [h1.1]; exact hv) (hg v)
  · intro h; exact ⟨[], k, ks, rfl, by simp, h⟩

/-- **C35** `GetAll` fails with the error of the first key that cannot be read. -/
theorem C35_getAll_err (json : Bytes) (path : List Bytes) (keys : List Bytes) (e : Err) :
    GetAll json keys path = .err e ↔ FirstError json path keys e := by
  induction keys with
  | nil =>
    simp only [GetAll, reduceCtorEq, false_iff]
    rintro ⟨good, k, rest, h, -⟩; simp at h
  | cons k ks ih =>
    rw [GetAll, GetString]
    cases hg : Get json (path ++ [k]) with
    | ok v =>
      rw [firstError_cons_ok hg, ← ih]
      simp only [Out.bind_ok, Out.pure_eq]
      cases GetAll json ks path <;> simp
    | err e' => rw [firstError_cons_not (by simp [hg]), hg]; simp
    | panic => rw [firstError_cons_not (by simp [hg]), hg]; simp

theorem goMap_get_set (m : GoMap) (k v k' : Bytes) :
    (m.set k v).get? k' = if k = k' then some v else m.get? k' := by
  induction m with
  | nil => simp [GoMap.set, GoMap.get?]
  | cons p m ih =>
    obtain ⟨a, b⟩ := p
    simp only [GoMap.set]
    by_cases h : a = k
    · subst h
      simp only [beq_self_eq_true, if_true, GoMap.get?, beq_iff_eq]
      split <;> rfl
    · simp only [beq_iff_eq, h, if_false, GoMap.get?, ih]
      by_cases h2 : a = k'
      · subst h2; simp [Ne.symm h]
      · simp [h2]

/-- The value of a successful read. -/
def Out.val? {α : Type} : Out α → Option α
  | .ok a => some a
  | _ => none

theorem getAllMapLoop_ok (json : Bytes) (path : List Bytes) (keys : List Bytes) : ∀ (m0 m : GoMap),
    getAllMapLoop json path keys m0 = .ok m →
      (∀ k ∈ keys, ∃ v, Get json (path ++ [k]) = .ok v) ∧
      ∀ k, m.get? k = if k ∈ keys then (Get json (path ++ [k])).val? else m0.get? k := by
  induction keys with
  | nil => intro m0 m h; simp only [getAllMapLoop, Out.ok.injEq] at h; subst h; simp
  | cons k ks ih =>
    intro m0 m h
    rw [getAllMapLoop, GetString] at h
    cases hg : Get json (path ++ [k]) with
    | err e => simp [hg] at h
    | panic => simp [hg] at h
    | ok v =>
      simp only [hg, Out.bind_ok] at h
      obtain ⟨h1, h2⟩ := ih _ _ h
      refine ⟨?_, ?_⟩
      · intro x hx
        rcases List.mem_cons.1 hx with rfl | hx
        · exact ⟨v, hg⟩
        · exact h1 x hx
      · intro k'
        rw [h2]
        by_cases hk : k' ∈ ks
        · simp [hk]
        · by_cases he : k = k'
          · subst he; simp [hk, hg, goMap_get_set, Out.val?]
          · simp [hk, goMap_get_set, he, Ne.symm he]

/-- **C35** `GetAllMap` maps each requested key to its `Get` and holds no other key. -/
theorem C35_getAllMap_ok (json : Bytes) (path : List Bytes) (keys : List Bytes) (m : GoMap)
    (h : GetAllMap json keys path = .ok m) :
    (∀ k ∈ keys, ∃ v, Get json (path ++ [k]) = .ok v ∧ m.get? k = some v) ∧ ∀ k, k ∉ keys → m.get? k = none := by
  obtain ⟨h1, h2⟩ := getAllMapLoop_ok json path keys [] m h
  refine ⟨?_, ?_⟩
  · intro k hk
    obtain ⟨v, hv⟩ := h1 k hk
    exact ⟨v, hv, by rw [h2, if_pos hk, hv]; rfl⟩
  · intro k hk; rw [h2, if_neg hk]; rfl

/-- **C35** `GetAllMap` fails exactly as `GetAll` does, and succeeds when `GetAll` does. -/
theorem C35_getAllMap_err (json : Bytes) (path : List Bytes) (keys : List Bytes) :
    (∀ e, GetAllMap json keys path = .err e ↔ GetAll json keys path = .err e) ∧
    ((∃ m, GetAllMap json keys path = .ok m) ↔ ∃ vs, GetAll json keys path = .ok vs) := by
  unfold GetAllMap
  generalize ([] : GoMap) = m0
  induction keys generalizing m0 with
  | nil => simp [getAllMapLoop, GetAll]
  | cons k ks ih =>
    rw [getAllMapLoop, GetAll, GetString]
    cases hg : Get json (path ++ [k]) with
    | err e => simp
    | panic => simp
    | ok v =>
      obtain ⟨i1, i2⟩ := ih (GoMap.set m0 k v)
      simp only [Out.bind_ok, Out.pure_eq]
      refine ⟨fun e => ?_, ?_⟩
      · rw [i1]; cases GetAll json ks path <;> simp
      · rw [i2]; cases GetAll json ks path <;> simp

example : GetAll (str "{\"o\":{\"a\":1,\"b\":\"x\"}}") [str "b", str "a", str "b"] [str "o"] =
      .ok [str "x", str "1", str "x"] ∧
    GetAll (str "{\"o\":{\"a\":1,\"b\":\"x\"}}") [str "b", str "c", str "d"] [str "o"] =
      .err (.keyNotFound (str "c")) ∧
    GetAllMap (str "{\"o\":{\"a\":1,\"b\":\"x\"}}") [str "b", str "a"] [str "o"] =
      .ok [(str "b", str "x"), (str "a", str "1")] := by decide +kernel

end Jin
