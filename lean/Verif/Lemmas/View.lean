import Verif.Lemmas.Figment
/-! # Algebra of views -/
namespace Figment
namespace View

theorem blocked_iff {A : View} {p : List Str} :
    View.blocked A p = true ↔ ∃ n, n < p.length ∧ ∃ v, A (p.take n) = some (.leaf v) := by
  simp only [View.blocked, List.any_eq_true, List.mem_range]
  constructor
  · rintro ⟨n, hn, h⟩
    refine ⟨n, hn, ?_⟩
    split at h
    · rename_i v hv; exact ⟨v, hv⟩
    · cases h
  · rintro ⟨n, hn, v, hv⟩
    exact ⟨n, hn, by rw [hv]⟩

theorem blocked_take {A : View} {p : List Str} {n : Nat} (h : View.blocked A (p.take n) = true) :
    View.blocked A p = true := by
  rw [blocked_iff] at *
  obtain ⟨m, hm, v, hv⟩ := h
  rw [List.length_take] at hm
  refine ⟨m, by omega, v, ?_⟩
  rw [List.take_take] at hv
  rwa [Nat.min_eq_left (by omega)] at hv

theorem not_blocked_take {A : View} {p : List Str} {n : Nat} (h : View.blocked A p = false) :
    View.blocked A (p.take n) = false := by
  cases hb : View.blocked A (p.take n) with
  | false => rfl
  | true => rw [blocked_take hb] at h; cases h

theorem merge_some {A B : View} {p : List Str} {s : Shape} (h : B p = some s) :
    View.merge A B p = some s := by simp [View.merge, h]

theorem join_some {A B : View} {p : List Str} {s : Shape} (h : A p = some s) :
    View.join A B p = some s := by simp [View.join, h]

/-- Merging the same thing twice. -/
theorem merge_idem (A B : View) : View.merge (View.merge A B) B = View.merge A B := by
  funext p
  unfold View.merge
  cases B p <;> simp
  intro h; simp [h]

/-- Joining the same thing twice. -/
theorem join_idem (A B : View) : View.join (View.join A B) B = View.join A B := by
  funext p
  cases h : View.join A B p with
  | some s => exact join_some h
  | none =>
    rw [View.join, h]
    by_cases hb : View.blocked (View.join A B) p = true
    · simp [hb]
    · simp only [hb]
      have hA : A p = none := by
        cases hA : A p with
        | none => rfl
        | some s => rw [join_some hA] at h; cases h
      have hbA : View.blocked A p = false := by
        cases hc : View.blocked A p with
        | false => rfl
        | true =>
          exfalso
          apply hb
          rw [blocked_iff] at *
          obtain ⟨n, hn, v, hv⟩ := hc
          exact ⟨n, hn, v, join_some hv⟩
      simpa [View.join, hA, hbA] using h

/-- A view of a value: below a path there is something only if the path holds a dictionary. -/
def Tree (A : View) : Prop :=
  ∀ p n, n < p.length → (A p).isSome → ∃ t, A (p.take n) = some (.dict t)

/-- Grouping of merges does not matter if no path is a dictionary in the first and third but not in
the second. -/
theorem merge_assoc {A B C : View} (hA : Tree A)
    (h : ∀ q, (∃ t, A q = some (.dict t)) → (∃ t, C q = some (.dict t)) → ∀ v, B q ≠ some (.leaf v)) :
    View.merge A (View.merge B C) = View.merge (View.merge A B) C := by
  funext p
  cases hC : C p with
  | some s => rw [merge_some hC, merge_some (merge_some hC)]
  | none =>
    have h1 : View.merge (View.merge A B) C p = if View.blocked C p then none else View.merge A B p := by
      rw [View.merge, hC]
    rw [h1]
    have h2 : View.merge B C p = if View.blocked C p then none else B p := by
      rw [View.merge, hC]
    have hblock : View.blocked C p = true → View.blocked (View.merge B C) p = true := by
      intro hb
      rw [blocked_iff] at *
      obtain ⟨n, hn, v, hv⟩ := hb
      exact ⟨n, hn, v, merge_some hv⟩
    by_cases hb : View.blocked C p = true
    · rw [View.merge, h2]; simp [hb, hblock hb]
    · simp only [hb] at h2 ⊢
      cases hB : B p with
      | some s =>
        simp only [hB] at h2
        rw [merge_some (by simpa using h2), View.merge, hB]; rfl
      | none =>
        have h3 : View.merge B C p = none := by simpa [hB] using h2
        rw [View.merge, h3]
        simp only
        show _ = View.merge A B p
        rw [View.merge, hB]
        simp only
        -- compare the two `blocked`
        by_cases hbB : View.blocked B p = true
        · simp only [hbB, if_true]
          split
          · rfl
          · rename_i hnb
            -- then A has nothing at p
            cases hAp : A p with
            | none => rfl
            | some s =>
              exfalso
              rw [blocked_iff] at hbB
              obtain ⟨n, hn, v, hv⟩ := hbB
              obtain ⟨t, ht⟩ := hA p n hn (by simp [hAp])
              apply hnb
              rw [blocked_iff]
              refine ⟨n, hn, ?_⟩
              cases hCn : C (p.take n) with
              | none =>
                have hbn : View.blocked C (p.take n) = false := not_blocked_take (by simpa using hb)
                exact ⟨v, by rw [View.merge, hCn]; simp [hbn, hv]⟩
              | some s' =>
                cases s' with
                | dict t' => exact absurd hv (h _ ⟨t, ht⟩ ⟨t', hCn⟩ v)
                | leaf w => exact ⟨w, merge_some hCn⟩
        · have : View.blocked (View.merge B C) p = false := by
            cases hbm : View.blocked (View.merge B C) p with
            | false => rfl
            | true =>
              exfalso
              rw [blocked_iff] at hbm
              obtain ⟨n, hn, v, hv⟩ := hbm
              cases hCn : C (p.take n) with
              | some s' =>
                rw [merge_some hCn] at hv
                apply hb
                rw [blocked_iff]
                exact ⟨n, hn, v, by rw [hCn]; exact hv⟩
              | none =>
                rw [View.merge, hCn] at hv
                have hbn : View.blocked C (p.take n) = false := not_blocked_take (by simpa using hb)
                simp [hbn] at hv
                apply hbB
                rw [blocked_iff]
                exact ⟨n, hn, v, hv⟩
          simp [this, hbB]

/-- Merging one after the other: the last one that has something decides, if none of them puts a
non-dictionary above. -/
theorem foldl_merge (Bs : List View) (A : View) (p : List Str)
    (h : ∀ B ∈ Bs, View.blocked B p = false) :
    Bs.foldl View.merge A p = ((Bs.reverse.findSome? (fun B => B p)).or (A p)) := by
  induction Bs generalizing A with
  | nil => simp
  | cons B r ih =>
    rw [List.foldl_cons, ih _ (fun B hB => h B (List.mem_cons_of_mem _ hB))]
    simp only [List.reverse_cons, List.findSome?_append, List.findSome?_cons, List.findSome?_nil]
    have hb : View.blocked B p = false := h B (List.mem_cons_self ..)
    cases hB : B p with
    | none => simp [View.merge, hB, hb]
    | some s => simp [View.merge, hB]

/-- Joining one after the other: the first one that has something decides, if none of them puts a
non-dictionary above. -/
theorem foldl_join (Bs : List View) (A : View) (p : List Str) (hA : View.blocked A p = false)
    (h : ∀ B ∈ Bs, View.blocked B p = false) :
    Bs.foldl View.join A p = ((A p).or (Bs.findSome? (fun B => B p))) := by
  induction Bs generalizing A with
  | nil => simp
  | cons B r ih =>
    have hb : View.blocked B p = false := h B (List.mem_cons_self ..)
    have hj : View.blocked (View.join A B) p = false := by
      cases hc : View.blocked (View.join A B) p with
      | false => rfl
      | true =>
        exfalso
        rw [blocked_iff] at hc
        obtain ⟨n, hn, v, hv⟩ := hc
        cases hAn : A (p.take n) with
        | some s =>
          rw [join_some hAn] at hv
          have : View.blocked A p = true := blocked_iff.2 ⟨n, hn, v, by rw [hAn]; exact hv⟩
          rw [this] at hA; cases hA
        | none =>
          rw [View.join, hAn] at hv
          simp [not_blocked_take hA] at hv
          have : View.blocked B p = true := blocked_iff.2 ⟨n, hn, v, hv⟩
          rw [this] at hb; cases hb
    rw [List.foldl_cons, ih _ hj (fun B hB => h B (List.mem_cons_of_mem _ hB))]
    simp only [List.findSome?_cons]
    cases hAp : A p with
    | some s => simp [View.join, hAp]
    | none =>
      simp only [View.join, hAp, hA]
      cases B p <;> simp

/-- Where the grouping of merges matters. -/
theorem merge_assoc_iff {A B C : View} (hB : Tree B) (p : List Str) :
    View.merge A (View.merge B C) p ≠ View.merge (View.merge A B) C p ↔
    A p ≠ none ∧ C p = none ∧ View.blocked C p = false ∧
      ∃ n < p.length, ∃ v t, B (p.take n) = some (.leaf v) ∧ C (p.take n) = some (.dict t) := by
  have hM : ∀ q, View.merge B C q = match C q with | some s => some s | none => if View.blocked C q then none else B q :=
    fun q => rfl
  have hblock : View.blocked C p = true → View.blocked (View.merge B C) p = true := by
    intro hb
    rw [blocked_iff] at *
    obtain ⟨n, hn, v, hv⟩ := hb
    exact ⟨n, hn, v, merge_some hv⟩
  have hsub : View.blocked C p = false → ∀ n < p.length, View.blocked C (p.take n) = false := by
    intro hb n hn
    rw [← Bool.not_eq_true, blocked_iff] at *
    rintro ⟨k, hk, v, hv⟩
    rw [List.length_take] at hk
    rw [List.take_take, Nat.min_eq_left (by omega)] at hv
    exact hb ⟨k, by omega, v, hv⟩
  constructor
  · intro h
    cases hC : C p with
    | some s => rw [merge_some hC, merge_some (merge_some hC)] at h; exact absurd rfl h
    | none =>
      cases hb : View.blocked C p with
      | true =>
        exfalso; apply h
        have h1 : View.merge A (View.merge B C) p = none := by rw [View.merge, hM]; simp [hC, hb, hblock hb]
        have h2 : View.merge (View.merge A B) C p = none := by rw [View.merge]; simp [hC, hb]
        rw [h1, h2]
      | false =>
        cases hBp : B p with
        | some s =>
          exfalso; apply h
          have h1 : View.merge A (View.merge B C) p = some s := by rw [View.merge, hM]; simp [hC, hb, hBp]
          have h2 : View.merge (View.merge A B) C p = some s := by rw [View.merge]; simp [hC, hb, View.merge, hBp]
          rw [h1, h2]
        | none =>
          have h1 : View.merge A (View.merge B C) p = if View.blocked (View.merge B C) p then none else A p := by
            rw [View.merge, hM]; simp [hC, hb, hBp]
          have h2 : View.merge (View.merge A B) C p = if View.blocked B p then none else A p := by
            rw [View.merge]; simp [hC, hb, View.merge, hBp]
          rw [h1, h2] at h
          have hbB : View.blocked B p = true := by
            cases hbB : View.blocked B p with
            | true => rfl
            | false =>
              exfalso; apply h
              cases hbM : View.blocked (View.merge B C) p with
              | false => simp [hbB]
              | true =>
                exfalso
                rw [blocked_iff] at hbM
                obtain ⟨n, hn, v, hv⟩ := hbM
                rw [hM] at hv
                cases hCn : C (p.take n) with
                | some s =>
                  rw [hCn] at hv
                  cases hv
                  rw [← Bool.not_eq_true, blocked_iff] at hb
                  exact hb ⟨n, hn, v, hCn⟩
                | none =>
                  rw [hCn] at hv
                  simp only [hsub hb n hn] at hv
                  rw [← Bool.not_eq_true, blocked_iff] at hbB
                  exact hbB ⟨n, hn, v, by simpa using hv⟩
          cases hbM : View.blocked (View.merge B C) p with
          | true => simp [hbM, hbB] at h
          | false =>
            refine ⟨fun hA => by simp [hA] at h, rfl, rfl, ?_⟩
            rw [blocked_iff] at hbB
            obtain ⟨n, hn, v, hv⟩ := hbB
            rw [← Bool.not_eq_true, blocked_iff] at hbM hb
            cases hCn : C (p.take n) with
            | none =>
              exfalso; apply hbM
              refine ⟨n, hn, v, ?_⟩
              rw [hM, hCn]
              simp [hsub (by rw [← Bool.not_eq_true, blocked_iff]; exact hb) n hn, hv]
            | some s =>
              cases s with
              | leaf w => exact absurd ⟨n, hn, w, hCn⟩ hb
              | dict t => exact ⟨n, hn, v, t, hv, hCn⟩
  · rintro ⟨hA, hC, hb, n, hn, v, t, hv, ht⟩
    have hBp : B p = none := by
      cases hBp : B p with
      | none => rfl
      | some s =>
        obtain ⟨t', ht'⟩ := hB p n hn (by simp [hBp])
        rw [hv] at ht'; cases ht'
    have hbB : View.blocked B p = true := blocked_iff.2 ⟨n, hn, v, hv⟩
    have hbM : View.blocked (View.merge B C) p = false := by
      rw [← Bool.not_eq_true, blocked_iff]
      rintro ⟨k, hk, w, hw⟩
      rw [hM] at hw
      cases hCk : C (p.take k) with
      | some s =>
        rw [hCk] at hw
        cases hw
        rw [← Bool.not_eq_true, blocked_iff] at hb
        exact hb ⟨k, hk, w, hCk⟩
      | none =>
        rw [hCk] at hw
        simp only [hsub hb k hk] at hw
        have hw : B (p.take k) = some (.leaf w) := by simpa using hw
        rcases Nat.lt_trichotomy k n with h | h | h
        · obtain ⟨t', ht'⟩ := hB (p.take n) k (by rw [List.length_take]; omega) (by simp [hv])
          rw [List.take_take, Nat.min_eq_left (by omega), hw] at ht'
          cases ht'
        · subst h; rw [ht] at hCk; cases hCk
        · obtain ⟨t', ht'⟩ := hB (p.take k) n (by rw [List.length_take]; omega) (by simp [hw])
          rw [List.take_take, Nat.min_eq_left (by omega), hv] at ht'
          cases ht'
    have h1 : View.merge A (View.merge B C) p = A p := by
      rw [View.merge, hM]; simp [hC, hb, hBp, hbM]
    have h2 : View.merge (View.merge A B) C p = none := by
      rw [View.merge]; simp [hC, hb, View.merge, hBp, hbB]
    rw [h1, h2]; exact hA
end View

namespace Value

theorem tree_view (v : Value) : View.Tree v.view := by
  intro p
  induction p generalizing v with
  | nil => intro n hn; simp at hn
  | cons k ks ih =>
    intro n hn hs
    by_cases h : v.asDict? = none
    · rw [view_leaf_cons h] at hs; simp at hs
    · cases v <;> simp [asDict?] at h
      rename_i t d
      cases n with
      | zero => exact ⟨t, rfl⟩
      | succ n =>
        rw [view_dict_cons] at hs
        rw [List.take_succ_cons, view_dict_cons]
        cases hg : Map.get k d with
        | none => simp [hg] at hs
        | some x =>
          simp only [hg, Option.bind_some] at hs ⊢
          exact ih x n (by simpa using hn) hs

/-- A value shows nothing below a blocked path. -/
theorem view_eq_none_of_blocked {v : Value} {p : List Str} (h : View.blocked v.view p = true) :
    v.view p = none := by
  rw [View.blocked_iff] at h
  obtain ⟨n, hn, w, hw⟩ := h
  cases hv : v.view p with
  | none => rfl
  | some s =>
    obtain ⟨t, ht⟩ := tree_view v p n hn (by simp [hv])
    rw [ht] at hw; cases hw

end Value
end Figment
