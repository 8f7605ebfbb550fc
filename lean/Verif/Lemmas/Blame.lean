import Verif.Lemmas.Keys
import Verif.Lemmas.Magic
import Verif.Spec.Blame
/-!
# Lemmas: extraction errors point at the offending value
-/
namespace Figment

/-! ## Paths -/

theorem Value.Leads.named {b : Bool} {v w : Value} {p : List Str} (hv : v.tagsAll Tag.named = true)
    (h : v.Leads b p w) : w.tag.named = true ∧ w.tagsAll Tag.named = true := by
  induction h with
  | here v =>
    refine ⟨?_, hv⟩
    cases v <;> simp only [Value.tagsAll, Bool.and_eq_true] at hv <;> first | exact hv | exact hv.1
  | key hk _ ih =>
    simp only [Value.tagsAll, Bool.and_eq_true] at hv
    obtain ⟨k', hm, _⟩ := Map.mem_of_get hk
    exact ih (Value.tagsAllD_iff.1 hv.2 _ hm)
  | index hk _ ih =>
    simp only [Value.tagsAll, Bool.and_eq_true] at hv
    exact ih (Value.tagsAllA_iff.1 hv.2 _ (List.mem_of_getElem? hk))
  | skip _ _ _ ih => exact ih hv

theorem Value.Leads.inside {b : Bool} {v w : Value} {p : List Str} (hv : v.insideNamed = true) (h : v.Leads b p w) :
    w = v ∨ w.tag.named = true := by
  induction h with
  | here => exact .inl rfl
  | key hk h _ =>
    obtain ⟨k', hm, _⟩ := Map.mem_of_get hk
    exact .inr (h.named (Value.tagsAllD_iff.1 hv _ hm)).1
  | index hk h _ => exact .inr (h.named (Value.tagsAllA_iff.1 hv _ (List.mem_of_getElem? hk))).1
  | skip _ _ _ ih => exact ih hv

theorem Value.Leads.of_nil {b : Bool} {v w : Value} (h : v.Leads b [] w) : w = v := by cases h; rfl

theorem Tag.not_isDefault_of_named {t : Tag} (h : t.named = true) : t.isDefault = false := by
  cases hd : t.isDefault with
  | false => rfl
  | true =>
    have : t = Tag.Default := by
      cases t
      simp only [Tag.isDefault, Tag.Default, beq_iff_eq] at hd
      rw [hd]; rfl
    rw [this] at h
    exact absurd h (by decide)

theorem Value.uniformD_iff {d : List (Str × Value)} :
    Value.uniformD d = true ↔ ∀ e ∈ d, e.2.uniform = true := by
  induction d with
  | nil => simp [Value.uniformD]
  | cons e d ih => obtain ⟨k, v⟩ := e; simp [Value.uniformD, ih]

theorem Value.uniformA_iff {t : Tag} {a : List Value} :
    Value.uniformA t a = true ↔ ∀ v ∈ a, v.tag = t ∧ v.uniform = true := by
  induction a with
  | nil => simp [Value.uniformA]
  | cons v a ih => simp [Value.uniformA, ih, and_assoc]

theorem Value.Leads.uniform {b : Bool} {v w : Value} {p : List Str} (hv : v.uniform = true) (h : v.Leads b p w) :
    w.uniform = true := by
  induction h with
  | here => exact hv
  | key hk _ ih =>
    obtain ⟨k', hm, _⟩ := Map.mem_of_get hk
    exact ih (Value.uniformD_iff.1 hv _ hm)
  | index hk _ ih => exact ih (Value.uniformA_iff.1 hv _ (List.mem_of_getElem? hk)).2
  | skip _ _ _ ih => exact ih hv

theorem Value.LeadsInto.uniform {b : Bool} {v w : Value} {p : List Str} {t : Tag} (hv : v.uniform = true)
    (h : v.LeadsInto b p t w) : w.tag = t := by
  obtain ⟨q, i, a, _, h1, h2⟩ := h
  exact (Value.uniformA_iff.1 (h1.uniform hv) _ (List.mem_of_getElem? h2)).1

theorem Value.LeadsInto.inside {b : Bool} {v w : Value} {p : List Str} {t : Tag} (hv : v.insideNamed = true)
    (h : v.LeadsInto b p t w) : t = v.tag ∨ t.named = true := by
  obtain ⟨q, i, a, _, h1, _⟩ := h
  rcases h1.inside hv with h | h
  · exact .inl (congrArg Value.tag h)
  · exact .inr h

theorem Value.LeadsInto.named {b : Bool} {v w : Value} {p : List Str} {t : Tag} (hv : v.tagsAll Tag.named = true)
    (h : v.LeadsInto b p t w) : t.named = true := by
  obtain ⟨q, i, a, _, h1, _⟩ := h
  exact (h1.named hv).1

theorem Value.LeadsInto.key {b : Bool} {t u : Tag} {d : List (Str × Value)} {k : Str} {v w : Value} {p : List Str}
    (hg : Map.get k d = some v) (h : v.LeadsInto b p t w) : (Value.dict u d).LeadsInto b (k :: p) t w := by
  obtain ⟨q, i, a, rfl, h1, h2⟩ := h
  exact ⟨k :: q, i, a, rfl, .key hg h1, h2⟩

theorem Value.LeadsInto.index {b : Bool} {t u : Tag} {a : List Value} {i : Nat} {v w : Value} {p : List Str}
    (hg : a[i]? = some v) (h : v.LeadsInto b p t w) : (Value.array u a).LeadsInto b (Dec.ofNat i :: p) t w := by
  obtain ⟨q, j, a', rfl, h1, h2⟩ := h
  exact ⟨Dec.ofNat i :: q, j, a', rfl, .index hg h1, h2⟩

theorem Value.LeadsInto.skip {b : Bool} {t : Tag} {k : Str} {v w : Value} {p : List Str} (hb : b = true)
    (hk : k ∈ reservedFields) (h : v.LeadsInto b p t w) : v.LeadsInto b (k :: p) t w := by
  obtain ⟨q, j, a', rfl, h1, h2⟩ := h
  exact ⟨k :: q, j, a', rfl, .skip hb hk h1, h2⟩

theorem Value.Leads.of_num {b : Bool} {v w : Value} {p : List Str} {t : Tag} {n : Num} (hv : v = .num t n)
    (h : v.Leads b p w) : w = .num t n := by
  induction h with
  | here => exact hv
  | key => cases hv
  | index => cases hv
  | skip _ _ _ ih => exact ih hv

/-! ## Errors -/

/-- The metadata and profile a deserialiser gives to an error. -/
def Error.Resolved (c : Option Fig) (e : Error) : Prop :=
  match c with
  | none => e.head.metadata = none ∧ e.head.profile = none
  | some f => e.head.metadata = Map.get e.head.tag f.metadata ∧
      e.head.profile = some (e.head.tag.profile.getD f.profile)

variable [FloatOps]

/-- The error, raised inside the value `v`, before the deserialiser of `v` has seen it. -/
def Raw (b : Bool) (c : Option Fig) (l : Bool) (v : Value) (e : Error) : Prop :=
  ∃ w, v.Leads b e.head.path w ∧ w.Fits l e.head.path.getLast? e.head.kind ∧ e.prev = none ∧
    (v.insideNamed = true →
      (e.head.tag = w.tag ∨ (w.tag = v.tag ∧ e.head.tag = Tag.Default) ∨
        (e.head.kind.isMessage = true ∧ ∃ t, v.LeadsInto b e.head.path t w ∧
          (e.head.tag = t ∨ (t = v.tag ∧ e.head.tag = Tag.Default)))) ∧
      (c = none → e.head.metadata = none ∧ e.head.profile = none))

/-- The error, raised at the value `v`, after the deserialiser of `v` has seen it; unless it is a message of a conversion
of `v` itself, which the deserialiser does not see. -/
def Blames (b : Bool) (c : Option Fig) (l : Bool) (v : Value) (e : Error) : Prop :=
  ∃ w, v.Leads b e.head.path w ∧ w.Fits l e.head.path.getLast? e.head.kind ∧ e.prev = none ∧
    (v.insideNamed = true →
      (e.head.tag = w.tag ∧ e.Resolved c) ∨ (e.head.kind.isMessage = true ∧ w = v ∧ e = Error.ofKind e.head.kind) ∨
      (e.head.kind.isMessage = true ∧ v.LeadsInto b e.head.path e.head.tag w ∧ e.Resolved c))

theorem Blames.raw {c : Option Fig} {l : Bool} {v : Value} {e : Error} (h : Blames b c l v e) : Raw b c l v e := by
  obtain ⟨w, h1, h2, h3, h4⟩ := h
  refine ⟨w, h1, h2, h3, fun hn => ?_⟩
  rcases h4 hn with ⟨h5, h6⟩ | ⟨_, rfl, he⟩ | ⟨hm, h5, h6⟩
  · refine ⟨.inl h5, fun hc => ?_⟩
    rw [hc] at h6
    exact h6
  · rw [he]
    exact ⟨.inr (.inl ⟨rfl, rfl⟩), fun _ => ⟨rfl, rfl⟩⟩
  · refine ⟨.inr (.inr ⟨hm, _, h5, .inl rfl⟩), fun hc => ?_⟩
    rw [hc] at h6
    exact h6

omit [FloatOps] in
theorem De.err_head (de : De) (tag : Tag) (e : Error) :
    (de.err tag e).head.path = e.head.path ∧ (de.err tag e).head.kind = e.head.kind ∧
    (e.prev = none → (de.err tag e).prev = none) ∧
    (de.err tag e).head.tag = if e.head.tag.isDefault then tag else e.head.tag := by
  unfold De.err Error.retagged
  cases hd : e.head.tag.isDefault <;> simp only [Bool.false_eq_true, if_true, if_false] <;> cases e <;>
    cases de.config <;> exact ⟨rfl, rfl, (fun h => by first | rfl | cases h), rfl⟩

omit [FloatOps] in
theorem De.err_resolved (c : Option Fig) (l : Bool) (tag : Tag) (e : Error)
    (h : c = none → e.head.metadata = none ∧ e.head.profile = none) : (De.err ⟨c, l⟩ tag e).Resolved c := by
  have key : ∀ (f : Fig) (t : Tag), t.profile.or (some f.profile) = some (t.profile.getD f.profile) := by
    intro f t; cases t.profile <;> rfl
  unfold De.err Error.retagged Error.Resolved
  cases hd : e.head.tag.isDefault <;> simp only [Bool.false_eq_true, if_true, if_false] <;> cases c with
  | none => cases e <;> exact h rfl
  | some f => cases e <;> exact ⟨rfl, key f _⟩

theorem Raw.blames {c : Option Fig} {l : Bool} {v : Value} {e : Error} (h : Raw b c l v e) :
    Blames b c l v (De.err ⟨c, l⟩ v.tag e) := by
  obtain ⟨w, h1, h2, h3, h4⟩ := h
  obtain ⟨hp, hk, hpr, ht⟩ := De.err_head ⟨c, l⟩ v.tag e
  refine ⟨w, hp ▸ h1, by rw [hp, hk]; exact h2, hpr h3, fun hn => ?_⟩
  obtain ⟨h5, h6⟩ := h4 hn
  have hres := De.err_resolved c l v.tag e h6
  rcases h5 with h5 | ⟨h5, h7⟩ | ⟨hm, t, h5, h7⟩
  · refine .inl ⟨?_, hres⟩
    rw [ht]
    split
    · next hd =>
      rcases h1.inside hn with hw | hw
      · rw [hw]
      · rw [h5, Tag.not_isDefault_of_named hw] at hd
        cases hd
    · exact h5
  · refine .inl ⟨?_, hres⟩
    rw [ht, h7, h5]
    rfl
  · refine .inr (.inr ⟨hk ▸ hm, ?_, hres⟩)
    have : (De.err ⟨c, l⟩ v.tag e).head.tag = t := by
      rw [ht]
      rcases h7 with h7 | ⟨h7, h8⟩
      · split
        · next hd =>
          rcases h5.inside hn with hw | hw
          · exact hw.symm
          · rw [h7, Tag.not_isDefault_of_named hw] at hd
            cases hd
        · exact h7
      · rw [h8, h7]
        rfl
    rw [this, hp]
    exact h5

/-- Raised by the deserialiser's value itself. -/
theorem Raw.here {c : Option Fig} {l : Bool} {v : Value} {k : Kind} (h : v.Fits l none k) :
    Raw b c l v (Error.ofKind k) :=
  ⟨v, .here v, h, rfl, fun _ => ⟨.inr (.inl ⟨rfl, rfl⟩), fun _ => ⟨rfl, rfl⟩⟩⟩

theorem Raw.ofType {c : Option Fig} {l : Bool} {v : Value} {α : Type} {a : Actual} {s : Str} {e : Error}
    (h : (invalidType a s : R α) = .error e) (ha : a = v.shown) : Raw b c l v e := by
  cases h
  exact .here (.inl (.inl ha))

omit [FloatOps] in
theorem MapDe.err_head (k : Str) (v : Value) (e : Error) :
    (MapDe.err k v e).head.path = k :: e.head.path ∧ (MapDe.err k v e).head.kind = e.head.kind ∧
    (e.prev = none → (MapDe.err k v e).prev = none) ∧
    (MapDe.err k v e).head.tag = (if e.head.tag.isDefault then v.tag else e.head.tag) ∧
    (MapDe.err k v e).head.metadata = e.head.metadata ∧ (MapDe.err k v e).head.profile = e.head.profile := by
  have h0 : (e.prefixed k).head.tag = e.head.tag := by cases e <;> rfl
  unfold MapDe.err Error.retagged
  rw [h0]
  cases hd : e.head.tag.isDefault <;> simp only [Bool.false_eq_true, if_true, if_false] <;> cases e <;>
    exact ⟨rfl, rfl, (fun h => by first | rfl | cases h), rfl, rfl, rfl⟩

omit [FloatOps] in
theorem prefixed_head (k : Str) (e : Error) :
    (e.prefixed k).head.path = k :: e.head.path ∧ (e.prefixed k).head.kind = e.head.kind ∧
    (e.prev = none → (e.prefixed k).prev = none) ∧ (e.prefixed k).head.tag = e.head.tag ∧
    (e.prefixed k).head.metadata = e.head.metadata ∧ (e.prefixed k).head.profile = e.head.profile := by
  cases e <;> simp [Error.prefixed, Error.mapHead, Error.head, Error.prev]

/-- `Fits` with one more component in front. -/
theorem Value.fits_cons {l : Bool} {w : Value} {p : List Str} {k : Kind} (x : Str) (h : w.Fits l p.getLast? k) :
    w.Fits l (x :: p).getLast? k := by
  cases p with
  | cons y p => rwa [List.getLast?_cons_cons]
  | nil =>
    cases k with
    | unknownField k names => exact absurd h.1 (by simp)
    | unknownVariant s names =>
      refine ⟨h.1, .inl ?_⟩
      rcases h.2 with h2 | h2
      · exact h2
      · cases h2
    | invalidType a s => exact .inl (h.elim id fun ⟨_, h, _⟩ => nomatch h)
    | invalidValue a s => exact .inl (h.elim id fun ⟨_, h, _⟩ => nomatch h)
    | _ => exact h

/-- From an entry of a dictionary to the dictionary. -/
theorem Blames.entry {c : Option Fig} {l : Bool} {k : Str} {v : Value} {t : Tag} {d : List (Str × Value)} {e : Error}
    (h : Blames b c l v e) (hg : Map.get k d = some v) : Raw b c l (.dict t d) (MapDe.err k v e) := by
  obtain ⟨w, h1, h2, h3, h4⟩ := h
  obtain ⟨hp, hk, hpr, ht, hmeta, hprof⟩ := MapDe.err_head k v e
  refine ⟨w, hp ▸ .key hg h1, ?_, hpr h3, fun hn => ?_⟩
  · rw [hp, hk]; exact Value.fits_cons k h2
  · obtain ⟨k', hmem, _⟩ := Map.mem_of_get hg
    have hv := Value.tagsAllD_iff.1 hn _ hmem
    rcases h4 (Value.insideNamed_of_tagsAll hv) with ⟨h5, h6⟩ | ⟨_, rfl, he⟩ | ⟨hm, h5, h6⟩
    · refine ⟨.inl ?_, fun hc => ?_⟩
      · rw [ht, h5, Tag.not_isDefault_of_named (h1.named hv).1]
        rfl
      · rw [hmeta, hprof]; rw [hc] at h6; exact h6
    · rw [ht, hmeta, hprof, he]
      exact ⟨.inl rfl, fun _ => ⟨rfl, rfl⟩⟩
    · refine ⟨.inr (.inr ⟨hk ▸ hm, e.head.tag, hp ▸ h5.key hg, .inl ?_⟩), fun hc => ?_⟩
      · rw [ht, Tag.not_isDefault_of_named (h5.named hv)]
        rfl
      · rw [hmeta, hprof]; rw [hc] at h6; exact h6

/-- An error at the key of an entry of a dictionary. -/
theorem Raw.atKey {c : Option Fig} {l : Bool} {k : Str} {v : Value} {t : Tag} {d : List (Str × Value)} {kind : Kind}
    (hg : Map.get k d = some v) (h : v.Fits l (some k) kind) :
    Raw b c l (.dict t d) (MapDe.err k v (Error.ofKind kind)) := by
  obtain ⟨hp, hk, hpr, ht, hmeta, hprof⟩ := MapDe.err_head k v (Error.ofKind kind)
  refine ⟨v, hp ▸ .key hg (.here v), ?_, hpr rfl, fun hn => ⟨.inl ?_, fun hc => ?_⟩⟩
  · rw [hp, hk]; exact h
  · rw [ht]; rfl
  · rw [hmeta, hprof]; exact ⟨rfl, rfl⟩

/-- From an element of an array to the array. -/
theorem Blames.element {c : Option Fig} {l : Bool} {i : Nat} {v : Value} {t : Tag} {a : List Value} {e : Error}
    (h : Blames b c l v e) (hg : a[i]? = some v) : Raw b c l (.array t a) (e.prefixed (Dec.ofNat i)) := by
  obtain ⟨w, h1, h2, h3, h4⟩ := h
  obtain ⟨hp, hk, hpr, ht, hmeta, hprof⟩ := prefixed_head (Dec.ofNat i) e
  refine ⟨w, hp ▸ .index hg h1, ?_, hpr h3, fun hn => ?_⟩
  · rw [hp, hk]; exact Value.fits_cons _ h2
  · have hv := Value.tagsAllA_iff.1 hn _ (List.mem_of_getElem? hg)
    rcases h4 (Value.insideNamed_of_tagsAll hv) with ⟨h5, h6⟩ | ⟨hm, rfl, he⟩ | ⟨hm, h5, h6⟩
    · refine ⟨.inl (ht.trans h5), fun hc => ?_⟩
      rw [hmeta, hprof]; rw [hc] at h6; exact h6
    · rw [ht, hmeta, hprof, hp, hk, he]
      exact ⟨.inr (.inr ⟨hm, t, ⟨[], i, a, rfl, .here _, hg⟩, .inr ⟨rfl, rfl⟩⟩), fun _ => ⟨rfl, rfl⟩⟩
    · refine ⟨.inr (.inr ⟨hk ▸ hm, e.head.tag, hp ▸ h5.index hg, .inl ht⟩), fun hc => ?_⟩
      rw [hmeta, hprof]; rw [hc] at h6; exact h6

/-! ## Visitors -/

/-- What a deserialisation may assume of the value. -/
def Value.Fine (b : Bool) (v : Value) : Prop := v.WF ∧ (b = true → v.unreserved = true)

omit [FloatOps] in
theorem Value.Fine.entry {b : Bool} {t : Tag} {d : List (Str × Value)} (h : (Value.dict t d).Fine b) {e : Str × Value}
    (he : e ∈ d) : e.2.Fine b :=
  ⟨(Value.wf_dict.1 h.1).2 e he, fun hb => (Value.keysAllD_iff.1 (h.2 hb) e he).2⟩

omit [FloatOps] in
theorem Value.Fine.element {b : Bool} {t : Tag} {a : List Value} (h : (Value.array t a).Fine b) {e : Value}
    (he : e ∈ a) : e.Fine b :=
  ⟨Value.wf_array.1 h.1 e he, fun hb => Value.keysAllA_iff.1 (h.2 hb) e he⟩

/-- Errors of the deserialisation point at the offending value. -/
def Seed.Blames (b : Bool) (run : Seed) : Prop :=
  ∀ c l v e, v.Fine b → run ⟨c, l⟩ v = .error e → Figment.Blames b c l v e

omit [FloatOps] in
/-- What `deserialize_any` calls. -/
def Visitor.visit {α : Type} (V : Visitor α) (de : De) : Value → R α
  | .string _ s => V.visitStr s
  | .char _ c => V.visitChar c
  | .bool _ b => V.visitBool b
  | .num _ n => n.deserializeAny V
  | .empty _ e => e.deserializeAny V
  | .dict _ map => V.visitMap de map
  | .array _ seq => V.visitSeq de seq

omit [FloatOps] in
theorem any_visit {α : Type} (V : Visitor α) (de : De) (v : Value) :
    de.deserializeAny V v = R.mapErr (de.err v.tag) (V.visit de v) := by
  rw [De.deserializeAny.eq_def]
  cases v <;> rfl

/-- Errors of the visitor's methods that `deserialize_any` calls point at the offending value. -/
def Visitor.Raw {α : Type} (b : Bool) (V : Visitor α) : Prop :=
  ∀ c l v e, v.Fine b → V.visit ⟨c, l⟩ v = .error e → Figment.Raw b c l v e

theorem any_blames {α : Type} {b : Bool} {V : Visitor α} (hV : V.Raw b) {c : Option Fig} {l : Bool} {v : Value}
    {e : Error} (hv : v.Fine b) (h : De.deserializeAny ⟨c, l⟩ V v = .error e) : Blames b c l v e := by
  rw [any_visit, R.mapErr_eq_error] at h
  obtain ⟨e', h1, rfl⟩ := h
  exact (hV c l v e' hv h1).blames

theorem mapErr_blames {α : Type} {c : Option Fig} {l : Bool} {v : Value} {r : R α} {e : Error}
    (hr : ∀ e', r = .error e' → Raw b c l v e') (h : R.mapErr (De.err ⟨c, l⟩ v.tag) r = .error e) : Blames b c l v e := by
  rw [R.mapErr_eq_error] at h
  obtain ⟨e', h1, rfl⟩ := h
  exact (hr e' h1).blames

omit [FloatOps] in
theorem Num.visited_shown (t : Tag) (n : Num) : n.visited.unexpected = (Value.num t n).shown := by
  have h := Num.visited_toActual n
  cases n with
  | usize n =>
    refine Eq.trans ?_ h
    show (Num.tryUsize n).unexpected = (Num.tryUsize n).toActual
    unfold Num.tryUsize
    split
    · rfl
    split
    · rfl
    split <;> rfl
  | isize n =>
    refine Eq.trans ?_ h
    show (Num.tryIsize n).unexpected = (Num.tryIsize n).toActual
    unfold Num.tryIsize
    split
    · rfl
    split
    · rfl
    split <;> rfl
  | _ => rfl

omit [FloatOps] in
theorem Num.small_shown (t : Tag) (n : Num) {i : Int} (h : n.visited.small? = some i) :
    n.visited.toActual = (Value.num t n).shown := by
  rw [← Num.visited_shown t]
  cases hn : n.visited <;> first | rfl | (rw [hn] at h; cases h)

theorem Visitor.raw_of {α : Type} {b : Bool} {V : Visitor α}
    (hbool : ∀ x e, V.visitBool x = .error e → ∃ s, V.visitBool x = invalidType (.bool x) s)
    (hnum : ∀ c l t n e, V.visitNum n.visited = .error e → Figment.Raw b c l (.num t n) e)
    (hstr : ∀ c l t x e, V.visitStr x = .error e → Figment.Raw b c l (.string t x) e)
    (hchar : ∀ x e, V.visitChar x = .error e → ∃ s, V.visitChar x = invalidType (.str [x]) s)
    (hnone : ∀ e, V.visitNone = .error e → ∃ s, V.visitNone = invalidType .option s)
    (hunit : ∀ e, V.visitUnit = .error e → ∃ s, V.visitUnit = invalidType .unit s)
    (hseq : ∀ c l t a e, (Value.array t a).Fine b → V.visitSeq ⟨c, l⟩ a = .error e → Figment.Raw b c l (.array t a) e)
    (hmap : ∀ c l t a e, (Value.dict t a).Fine b → V.visitMap ⟨c, l⟩ a = .error e → Figment.Raw b c l (.dict t a) e) :
    V.Raw b := by
  intro c l v e hv h
  cases v with
  | string t s => exact hstr c l t s e h
  | char t s =>
    obtain ⟨s, hs⟩ := hchar _ e h
    exact Raw.ofType (hs ▸ h : (invalidType _ s : R α) = .error e) rfl
  | bool t x =>
    obtain ⟨s, hs⟩ := hbool _ e h
    exact Raw.ofType (hs ▸ h : (invalidType _ s : R α) = .error e) rfl
  | num t n =>
    have h' : n.deserializeAny V = .error e := h
    rw [Num.deserializeAny_visited] at h'
    exact hnum c l t n e h'
  | empty t x =>
    cases x with
    | none =>
      obtain ⟨s, hs⟩ := hnone e h
      exact Raw.ofType (hs ▸ h : (invalidType _ s : R α) = .error e) rfl
    | unit =>
      obtain ⟨s, hs⟩ := hunit e h
      exact Raw.ofType (hs ▸ h : (invalidType _ s : R α) = .error e) rfl
  | dict t d => exact hmap c l t d e hv h
  | array t a => exact hseq c l t a e hv h

theorem raw_num {α : Type} {c : Option Fig} {l : Bool} {t : Tag} {n : Num} {s : Str} {e : Error}
    (h : (invalidType n.visited.unexpected s : R α) = .error e) : Raw b c l (.num t n) e :=
  Raw.ofType h (Num.visited_shown t n)

theorem boolVisitor_raw (b : Bool) : boolVisitor.Raw b :=
  Visitor.raw_of (fun _ _ h => nomatch h) (fun _ _ _ _ _ h => raw_num h) (fun _ _ _ _ _ h => Raw.ofType h rfl)
    (fun _ _ _ => ⟨_, rfl⟩) (fun _ _ => ⟨_, rfl⟩) (fun _ _ => ⟨_, rfl⟩) (fun _ _ _ _ _ _ h => Raw.ofType h rfl)
    (fun _ _ _ _ _ _ h => Raw.ofType h rfl)

theorem flagVisitor_raw (b : Bool) : flagVisitor.Raw b := by
  intro c l v e _ h
  cases v with
  | string t s =>
    have h' : flagVisitor.visitStr s = .error e := h
    unfold flagVisitor at h'
    dsimp only at h'
    split at h'
    · cases h'
    split at h'
    · cases h'
    · cases h'; exact .here (.inl (.inl rfl))
  | char t s =>
    have h' : flagVisitor.visitStr [s] = .error e := h
    unfold flagVisitor at h'
    dsimp only at h'
    split at h'
    · cases h'
    split at h'
    · cases h'
    · cases h'; exact .here (.inl (.inl rfl))
  | bool t x => exact nomatch h
  | num t n =>
    have h' : n.deserializeAny flagVisitor = .error e := h
    rw [Num.deserializeAny_visited] at h'
    unfold flagVisitor at h'
    dsimp only at h'
    cases hs : n.visited.small? with
    | none => rw [hs] at h'; exact raw_num h'
    | some i =>
      rw [hs] at h'
      dsimp only at h'
      split at h'
      · cases h'
      · cases h'
        exact .here (.inl (.inl (Num.small_shown t n hs)))
  | empty t x => cases x <;> exact Raw.ofType h rfl
  | dict t d => exact Raw.ofType h rfl
  | array t a => exact Raw.ofType h rfl

theorem intVisitor_raw (b : Bool) (t : IntTy) : (intVisitor t).Raw b := by
  refine Visitor.raw_of (fun _ _ _ => ⟨_, rfl⟩) ?_ (fun _ _ _ _ _ h => Raw.ofType h rfl)
    (fun _ _ _ => ⟨_, rfl⟩) (fun _ _ => ⟨_, rfl⟩) (fun _ _ => ⟨_, rfl⟩) (fun _ _ _ _ _ _ h => Raw.ofType h rfl)
    (fun _ _ _ _ _ _ h => Raw.ofType h rfl)
  intro c l tag n e h
  unfold intVisitor at h
  dsimp only at h
  cases hs : n.visited.small? with
  | none => rw [hs] at h; exact raw_num h
  | some i =>
    rw [hs] at h
    dsimp only at h
    split at h
    · cases h
    · cases h
      exact .here (.inl (.inl (Num.small_shown tag n hs)))

theorem f32Visitor_raw (b : Bool) : f32Visitor.Raw b := by
  refine Visitor.raw_of (fun _ _ _ => ⟨_, rfl⟩) ?_ (fun _ _ _ _ _ h => Raw.ofType h rfl)
    (fun _ _ _ => ⟨_, rfl⟩) (fun _ _ => ⟨_, rfl⟩) (fun _ _ => ⟨_, rfl⟩) (fun _ _ _ _ _ _ h => Raw.ofType h rfl)
    (fun _ _ _ _ _ _ h => Raw.ofType h rfl)
  intro c l tag n e h
  have hn := raw_num (b := b) (α := Val) (c := c) (l := l) (t := tag) (n := n) (s := str "f32") (e := e)
  unfold f32Visitor at h
  dsimp only at h
  revert h hn
  generalize n.visited = m
  intro h hn
  cases m <;> first | exact hn h | exact nomatch h

theorem f64Visitor_raw (b : Bool) : f64Visitor.Raw b := by
  refine Visitor.raw_of (fun _ _ _ => ⟨_, rfl⟩) ?_ (fun _ _ _ _ _ h => Raw.ofType h rfl)
    (fun _ _ _ => ⟨_, rfl⟩) (fun _ _ => ⟨_, rfl⟩) (fun _ _ => ⟨_, rfl⟩) (fun _ _ _ _ _ _ h => Raw.ofType h rfl)
    (fun _ _ _ _ _ _ h => Raw.ofType h rfl)
  intro c l tag n e h
  have hn := raw_num (b := b) (α := Val) (c := c) (l := l) (t := tag) (n := n) (s := str "f64") (e := e)
  unfold f64Visitor at h
  dsimp only at h
  revert h hn
  generalize n.visited = m
  intro h hn
  cases m <;> first | exact hn h | exact nomatch h

theorem tagVisitor_raw (b : Bool) : tagVisitor.Raw b := by
  refine Visitor.raw_of (fun _ _ _ => ⟨_, rfl⟩) ?_ (fun _ _ _ _ _ h => Raw.ofType h rfl)
    (fun _ _ _ => ⟨_, rfl⟩) (fun _ _ => ⟨_, rfl⟩) (fun _ _ => ⟨_, rfl⟩) (fun _ _ _ _ _ _ h => Raw.ofType h rfl)
    (fun _ _ _ _ _ _ h => Raw.ofType h rfl)
  intro c l tag n e h
  have hn := raw_num (b := b) (α := Tag) (c := c) (l := l) (t := tag) (n := n) (s := str "a 64-bit metadata id integer") (e := e)
  unfold tagVisitor at h
  dsimp only at h
  revert h hn
  generalize n.visited = m
  intro h hn
  cases m <;> first | exact hn h | exact nomatch h

theorem charVisitor_raw (b : Bool) : charVisitor.Raw b := by
  refine Visitor.raw_of (fun _ _ _ => ⟨_, rfl⟩) (fun _ _ _ _ _ h => raw_num h) ?_
    (fun _ _ h => nomatch h) (fun _ _ => ⟨_, rfl⟩) (fun _ _ => ⟨_, rfl⟩) (fun _ _ _ _ _ _ h => Raw.ofType h rfl)
    (fun _ _ _ _ _ _ h => Raw.ofType h rfl)
  intro c l tag s e h
  unfold charVisitor at h
  dsimp only at h
  split at h
  · cases h
  · cases h; exact .here (.inl (.inl rfl))

theorem stringVisitor_raw (b : Bool) : stringVisitor.Raw b :=
  Visitor.raw_of (fun _ _ _ => ⟨_, rfl⟩) (fun _ _ _ _ _ h => raw_num h) (fun _ _ _ _ _ h => nomatch h)
    (fun _ _ h => nomatch h) (fun _ _ => ⟨_, rfl⟩) (fun _ _ => ⟨_, rfl⟩) (fun _ _ _ _ _ _ h => Raw.ofType h rfl)
    (fun _ _ _ _ _ _ h => Raw.ofType h rfl)

theorem pathVisitor_raw (b : Bool) : pathVisitor.Raw b :=
  Visitor.raw_of (fun _ _ _ => ⟨_, rfl⟩) (fun _ _ _ _ _ h => raw_num h) (fun _ _ _ _ _ h => nomatch h)
    (fun _ _ h => nomatch h) (fun _ _ => ⟨_, rfl⟩) (fun _ _ => ⟨_, rfl⟩) (fun _ _ _ _ _ _ h => Raw.ofType h rfl)
    (fun _ _ _ _ _ _ h => Raw.ofType h rfl)

theorem unitVisitor_raw (b : Bool) (s : Str) : (unitVisitor s).Raw b :=
  Visitor.raw_of (fun _ _ _ => ⟨_, rfl⟩) (fun _ _ _ _ _ h => raw_num h) (fun _ _ _ _ _ h => Raw.ofType h rfl)
    (fun _ _ _ => ⟨_, rfl⟩) (fun _ _ => ⟨_, rfl⟩) (fun _ h => nomatch h) (fun _ _ _ _ _ _ h => Raw.ofType h rfl)
    (fun _ _ _ _ _ _ h => Raw.ofType h rfl)

/-! ## Loops -/

theorem seqLoop_raw {b : Bool} {run : Seed} (hr : run.Blames b) {c : Option Fig} {l : Bool} {t : Tag} {e : Error} :
    ∀ (r pre : List Value), (Value.array t (pre ++ r)).Fine b → seqLoop run ⟨c, l⟩ pre.length r = .error e →
      Raw b c l (.array t (pre ++ r)) e
  | [], _, _, h => nomatch h
  | v :: r, pre, hf, h => by
    rw [seqLoop, SeqDe.nextElement] at h
    cases h1 : run ⟨c, l⟩ v with
    | error e' =>
      rw [h1] at h
      cases h
      exact (hr c l v e' (hf.element (by simp)) h1).element (by simp)
    | ok x =>
      rw [h1] at h
      dsimp only [R.mapErr] at h
      cases h2 : seqLoop run ⟨c, l⟩ (pre.length + 1) r with
      | ok xs => rw [h2] at h; cases h
      | error e' =>
        rw [h2] at h
        cases h
        have := seqLoop_raw hr (c := c) (l := l) (t := t) (e := e) r (pre ++ [v])
        simp only [List.append_assoc, List.singleton_append, List.length_append, List.length_singleton] at this
        exact this hf h2

theorem tupleLoop_raw {b : Bool} {exp : Str} {c : Option Fig} {l : Bool} {t : Tag} {e : Error} :
    ∀ (fs : List (Option Val × Seed)) (_ : ∀ p ∈ fs, Seed.Blames b p.2) (i : Nat) (r pre : List Value),
      (Value.array t (pre ++ r)).Fine b → pre.length ≤ i → (r ≠ [] → pre.length = i) →
      tupleLoop exp ⟨c, l⟩ i fs r = .error e → Raw b c l (.array t (pre ++ r)) e
  | [], _, _, _, _, _, _, _, h => nomatch h
  | (some x, run) :: fs, hr, i, [], pre, hf, hi, hi', h => by
    rw [tupleLoop] at h
    cases h2 : tupleLoop exp ⟨c, l⟩ (i + 1) fs [] with
    | ok xs => rw [h2] at h; cases h
    | error e' =>
      rw [h2] at h
      cases h
      exact tupleLoop_raw fs (fun p hp => hr p (List.mem_cons_of_mem _ hp)) (i + 1) [] pre hf (by omega)
        (fun h => absurd rfl h) h2
  | (none, run) :: fs, hr, i, [], pre, hf, hi, hi', h => by
    rw [tupleLoop] at h
    cases h
    exact .here ⟨t, pre ++ [], rfl, by simpa using hi⟩
  | (y, run) :: fs, hr, i, v :: r, pre, hf, hi, hi', h => by
    have hi'' := hi' (by simp)
    rw [tupleLoop, SeqDe.nextElement] at h
    cases h1 : run ⟨c, l⟩ v with
    | error e' =>
      rw [h1] at h
      cases h
      exact (hr (y, run) (List.mem_cons_self ..) c l v e' (hf.element (by simp)) h1).element (by simp [← hi''])
    | ok x =>
      rw [h1] at h
      dsimp only [R.mapErr] at h
      cases h2 : tupleLoop exp ⟨c, l⟩ (i + 1) fs r with
      | ok xs => rw [h2] at h; cases h
      | error e' =>
        rw [h2] at h
        cases h
        have := tupleLoop_raw (exp := exp) (c := c) (l := l) (t := t) (e := e) fs
          (fun p hp => hr p (List.mem_cons_of_mem _ hp)) (i + 1) r (pre ++ [v])
        simp only [List.append_assoc, List.singleton_append, List.length_append, List.length_singleton] at this
        exact this hf (by omega) (fun _ => by omega) h2

theorem mapLoop_raw {b : Bool} {run : Seed} (hr : run.Blames b) {c : Option Fig} {l : Bool} {t : Tag} {e : Error}
    {d : List (Str × Value)} (hf : (Value.dict t d).Fine b) :
    ∀ (r : List (Str × Value)), (∀ e ∈ r, e ∈ d) → mapLoop run ⟨c, l⟩ r = .error e → Raw b c l (.dict t d) e
  | [], _, h => nomatch h
  | (k, v) :: r, hd, h => by
    have hm := hd (k, v) (List.mem_cons_self ..)
    rw [mapLoop, MapDe.nextValue] at h
    cases h1 : run ⟨c, l⟩ v with
    | error e' =>
      rw [h1] at h
      cases h
      exact (hr c l v e' (hf.entry hm) h1).entry (Map.get_eq_some_of_mem (Value.wf_dict.1 hf.1).1 hm)
    | ok x =>
      rw [h1] at h
      dsimp only [R.mapErr] at h
      cases h2 : mapLoop run ⟨c, l⟩ r with
      | ok xs => rw [h2] at h; cases h
      | error e' =>
        rw [h2] at h
        cases h
        exact mapLoop_raw hr hf r (fun e he => hd e (List.mem_cons_of_mem _ he)) h2

theorem fieldLoop_raw {b deny : Bool} {fs : List FieldSeed} (hr : ∀ f ∈ fs, f.run.Blames b) {c : Option Fig} {l : Bool}
    {t : Tag} {e : Error} {d : List (Str × Value)} (hf : (Value.dict t d).Fine b) :
    ∀ (r : List (Str × Value)) (acc : List (Str × Val)), (∀ e ∈ r, e ∈ d) →
      fieldLoop ⟨c, l⟩ deny fs r acc = .error e → Raw b c l (.dict t d) e
  | [], _, _, h => nomatch h
  | (k, v) :: r, acc, hd, h => by
    have hm := hd (k, v) (List.mem_cons_self ..)
    have hg := Map.get_eq_some_of_mem (Value.wf_dict.1 hf.1).1 hm
    have hd' : ∀ e ∈ r, e ∈ d := fun e he => hd e (List.mem_cons_of_mem _ he)
    rw [fieldLoop] at h
    cases h0 : fs.find? (fun f => f.name = k) with
    | none =>
      rw [h0] at h
      dsimp only at h
      cases deny with
      | true =>
        cases h
        refine Raw.atKey hg ⟨rfl, fun hk => ?_⟩
        obtain ⟨f, hf1, hf2⟩ := List.mem_map.1 hk
        have := List.find?_eq_none.1 h0 f hf1
        simp [hf2] at this
      | false => exact fieldLoop_raw hr hf r acc hd' h
    | some f =>
      rw [h0] at h
      dsimp only at h
      rw [MapDe.nextValue] at h
      cases h1 : f.run ⟨c, l⟩ v with
      | error e' =>
        rw [h1] at h
        cases h
        exact (hr f (List.mem_of_find?_eq_some h0) c l v e' (hf.entry hm) h1).entry hg
      | ok x =>
        rw [h1] at h
        exact fieldLoop_raw hr hf r _ hd' h

omit [FloatOps] in
/-- After the loop, every field that is a key has been found. -/
theorem fieldLoop_found {de : De} {deny : Bool} {fs : List FieldSeed} :
    ∀ (r : List (Str × Value)) (acc acc' : List (Str × Val)), fieldLoop de deny fs r acc = .ok acc' →
      (∀ k, (acc.lookup k).isSome → (acc'.lookup k).isSome) ∧
      ∀ e ∈ r, ∀ f ∈ fs, f.name = e.1 → (acc'.lookup e.1).isSome
  | [], acc, acc', h => by
    cases h
    exact ⟨fun _ h => h, nofun⟩
  | (k, v) :: r, acc, acc', h => by
    rw [fieldLoop] at h
    cases h0 : fs.find? (fun f => f.name = k) with
    | none =>
      rw [h0] at h
      dsimp only at h
      cases deny with
      | true => cases h
      | false =>
        obtain ⟨h1, h2⟩ := fieldLoop_found r acc acc' h
        refine ⟨h1, fun e he f hf hfe => ?_⟩
        rcases List.mem_cons.1 he with rfl | he
        · have := List.find?_eq_none.1 h0 f hf
          simp [hfe] at this
        · exact h2 e he f hf hfe
    | some g =>
      rw [h0] at h
      dsimp only at h
      cases h1 : MapDe.nextValue g.run de k v with
      | error e => rw [h1] at h; cases h
      | ok x =>
        rw [h1] at h
        obtain ⟨h2, h3⟩ := fieldLoop_found r _ acc' h
        constructor
        · intro k' hk
          refine h2 k' ?_
          rw [List.lookup_cons]
          split
          · rfl
          · exact hk
        · intro e he f hf hfe
          rcases List.mem_cons.1 he with rfl | he
          · refine h2 _ ?_
            simp
          · exact h3 e he f hf hfe

theorem fieldFinish_raw {c : Option Fig} {l : Bool} {t : Tag} {d : List (Str × Value)} {acc : List (Str × Val)}
    {e : Error} : ∀ (fs : List FieldSeed), (∀ f ∈ fs, ∀ e ∈ d, f.name = e.1 → (acc.lookup f.name).isSome) →
      fieldFinish acc fs = .error e → Raw b c l (.dict t d) e
  | [], _, h => nomatch h
  | f :: fs, hfs, h => by
    rw [fieldFinish, FieldSeed.get] at h
    cases h1 : acc.lookup f.name with
    | none =>
      have hnone : Map.get f.name d = none := by
        refine Map.get_eq_none_of_forall fun e he hc => ?_
        have := hfs f (List.mem_cons_self ..) e he (Std.LawfulEqOrd.eq_of_compare hc)
        rw [h1] at this
        cases this
      rw [h1] at h
      dsimp only at h
      rw [FieldSeed.missing] at h
      cases h2 : f.dflt with
      | some x =>
        rw [h2] at h
        dsimp only at h
        cases h3 : fieldFinish acc fs with
        | ok xs => rw [h3] at h; cases h
        | error e' =>
          rw [h3] at h
          cases h
          exact fieldFinish_raw fs (fun g hg => hfs g (List.mem_cons_of_mem _ hg)) h3
      | none =>
        rw [h2] at h
        dsimp only at h
        cases ho : f.opt with
        | true =>
          simp only [ho, if_true] at h
          cases h3 : fieldFinish acc fs with
          | ok xs => rw [h3] at h; cases h
          | error e' =>
            rw [h3] at h
            cases h
            exact fieldFinish_raw fs (fun g hg => hfs g (List.mem_cons_of_mem _ hg)) h3
        | false =>
          simp only [ho, Bool.false_eq_true, if_false] at h
          cases h
          exact .here ⟨t, d, rfl, hnone⟩
    | some x =>
      rw [h1] at h
      dsimp only at h
      cases h3 : fieldFinish acc fs with
      | ok xs => rw [h3] at h; cases h
      | error e' =>
        rw [h3] at h
        cases h
        exact fieldFinish_raw fs (fun g hg => hfs g (List.mem_cons_of_mem _ hg)) h3

theorem seqVisitor_raw {b : Bool} {run : Seed} (hr : run.Blames b) : (seqVisitor run).Raw b := by
  refine Visitor.raw_of (fun _ _ _ => ⟨_, rfl⟩) (fun _ _ _ _ _ h => raw_num h) (fun _ _ _ _ _ h => Raw.ofType h rfl)
    (fun _ _ _ => ⟨_, rfl⟩) (fun _ _ => ⟨_, rfl⟩) (fun _ _ => ⟨_, rfl⟩) ?_ (fun _ _ _ _ _ _ h => Raw.ofType h rfl)
  intro c l t a e hf h
  unfold seqVisitor at h
  dsimp only at h
  cases h1 : seqLoop run ⟨c, l⟩ 0 a with
  | ok x => rw [h1] at h; cases h
  | error e' => rw [h1] at h; cases h; exact seqLoop_raw hr a [] hf h1

theorem tupleVisitor_raw {b : Bool} {s s' : Str} {runs : List Seed} (hr : ∀ run ∈ runs, Seed.Blames b run) :
    (tupleVisitor s s' runs).Raw b := by
  refine Visitor.raw_of (fun _ _ _ => ⟨_, rfl⟩) (fun _ _ _ _ _ h => raw_num h) (fun _ _ _ _ _ h => Raw.ofType h rfl)
    (fun _ _ _ => ⟨_, rfl⟩) (fun _ _ => ⟨_, rfl⟩) (fun _ _ => ⟨_, rfl⟩) ?_ (fun _ _ _ _ _ _ h => Raw.ofType h rfl)
  intro c l t a e hf h
  unfold tupleVisitor at h
  dsimp only at h
  cases h1 : tupleLoop s' ⟨c, l⟩ 0 (runs.map fun run => (none, run)) a with
  | ok x => rw [h1] at h; cases h
  | error e' =>
    rw [h1] at h; cases h
    refine tupleLoop_raw (runs.map fun run => (none, run)) ?_ 0 a [] hf (Nat.le_refl _) (fun _ => rfl) h1
    intro p hp
    obtain ⟨run, h2, rfl⟩ := List.mem_map.1 hp
    exact hr run h2

theorem mapVisitor_raw {b : Bool} {run : Seed} (hr : run.Blames b) : (mapVisitor run).Raw b := by
  refine Visitor.raw_of (fun _ _ _ => ⟨_, rfl⟩) (fun _ _ _ _ _ h => raw_num h) (fun _ _ _ _ _ h => Raw.ofType h rfl)
    (fun _ _ _ => ⟨_, rfl⟩) (fun _ _ => ⟨_, rfl⟩) (fun _ _ => ⟨_, rfl⟩) (fun _ _ _ _ _ _ h => Raw.ofType h rfl) ?_
  intro c l t a e hf h
  unfold mapVisitor at h
  dsimp only at h
  cases h1 : mapLoop run ⟨c, l⟩ a with
  | ok x => rw [h1] at h; cases h
  | error e' => rw [h1] at h; cases h; exact mapLoop_raw hr hf a (fun _ h => h) h1

theorem pairsVisitor_raw {b : Bool} {run : Seed} (hr : run.Blames b) : (pairsVisitor run).Raw b := by
  refine Visitor.raw_of (fun _ _ _ => ⟨_, rfl⟩) (fun _ _ _ _ _ h => raw_num h) (fun _ _ _ _ _ h => Raw.ofType h rfl)
    (fun _ _ _ => ⟨_, rfl⟩) (fun _ _ => ⟨_, rfl⟩) (fun _ _ => ⟨_, rfl⟩) (fun _ _ _ _ _ _ h => Raw.ofType h rfl) ?_
  intro c l t a e hf h
  unfold pairsVisitor at h
  dsimp only at h
  cases h1 : mapLoop run ⟨c, l⟩ a with
  | ok x => rw [h1] at h; cases h
  | error e' => rw [h1] at h; cases h; exact mapLoop_raw hr hf a (fun _ h => h) h1

omit [FloatOps] in
theorem keyReported_str {s : Str} : KeyReported (some s) (.str s) := ⟨s, rfl, .inl rfl⟩

/-- The fault of a key fits the last component of the path. -/
theorem Ty.keyFault_fits {l : Bool} {w : Value} : ∀ (t : Ty) (s : Str) (k : Kind), t.KeyFault s k → w.Fits l (some s) k
  | .via t conv back, s, k, h => by
    simp only [Ty.KeyFault] at h
    rcases h with h | ⟨_, _, _, _, rfl⟩
    · exact Ty.keyFault_fits t s k h
    · trivial
  | .string, _, _, h | .pathBuf, _, _, h | .any _, _, _, h | .value, _, _, h => by simp only [Ty.KeyFault] at h
  | .char, s, k, h => by simp only [Ty.KeyFault] at h; rw [h.2]; exact .inr keyReported_str
  | .enum n vs, s, k, h => by
    simp only [Ty.KeyFault] at h
    rcases h with ⟨h, rfl⟩ | ⟨_, _, _, _, rfl⟩
    · exact ⟨h, .inr rfl⟩
    · exact .inr ⟨s, rfl, .inr rfl⟩
  | .flag, s, k, h => by simp only [Ty.KeyFault] at h; rw [h.2.2]; exact .inr keyReported_str
  | .parsed _ _ _, s, k, h => by
    simp only [Ty.KeyFault] at h
    obtain ⟨_, _, rfl⟩ := h
    trivial
  | .bool, _, _, h | .int _, _, _, h | .f32, _, _, h | .f64, _, _, h | .unit, _, _, h | .unitStruct _, _, _, h
  | .option _, _, _, h | .newtype _ _, _, _, h | .seq _, _, _, h | .tuple _, _, _, h | .tupleStruct _ _, _, _, h
  | .map _, _, _, h | .pairs _, _, _, h | .keyed _ _, _, _, h | .struct _ _ _ _, _, _, h | .flat _ _ _ _, _, _, h
  | .tag, _, _, h => by
    simp only [Ty.KeyFault] at h
    obtain ⟨_, _, rfl⟩ := h
    exact .inr keyReported_str

theorem keyedLoop_raw {b : Bool} {kt : Ty} {run : Seed} (hr : run.Blames b) {c : Option Fig} {l : Bool} {t : Tag} {e : Error}
    {d : List (Str × Value)} (hf : (Value.dict t d).Fine b) :
    ∀ (r : List (Str × Value)), (∀ e ∈ r, e ∈ d) → keyedLoop kt.deKey run ⟨c, l⟩ r = .error e → Raw b c l (.dict t d) e
  | [], _, h => nomatch h
  | (k, v) :: r, hd, h => by
    have hm := hd (k, v) (List.mem_cons_self ..)
    have hg := Map.get_eq_some_of_mem (Value.wf_dict.1 hf.1).1 hm
    rw [keyedLoop, MapDe.nextValue] at h
    cases h0 : kt.deKey k with
    | error e' =>
      rw [h0] at h
      cases h
      obtain ⟨kind, rfl, hk⟩ := (Ty.deKey_error kt k e').1 h0
      exact Raw.atKey hg (Ty.keyFault_fits kt k kind hk)
    | ok a =>
      rw [h0] at h
      dsimp only [R.mapErr] at h
      cases h1 : run ⟨c, l⟩ v with
      | error e' =>
        rw [h1] at h
        cases h
        exact (hr c l v e' (hf.entry hm) h1).entry hg
      | ok x =>
        rw [h1] at h
        dsimp only at h
        cases h2 : keyedLoop kt.deKey run ⟨c, l⟩ r with
        | ok xs => rw [h2] at h; cases h
        | error e' =>
          rw [h2] at h
          cases h
          exact keyedLoop_raw hr hf r (fun e he => hd e (List.mem_cons_of_mem _ he)) h2

theorem keyedVisitor_raw {b : Bool} {kt : Ty} {run : Seed} (hr : run.Blames b) : (keyedVisitor kt.deKey run).Raw b := by
  refine Visitor.raw_of (fun _ _ _ => ⟨_, rfl⟩) (fun _ _ _ _ _ h => raw_num h) (fun _ _ _ _ _ h => Raw.ofType h rfl)
    (fun _ _ _ => ⟨_, rfl⟩) (fun _ _ => ⟨_, rfl⟩) (fun _ _ => ⟨_, rfl⟩) (fun _ _ _ _ _ _ h => Raw.ofType h rfl) ?_
  intro c l t a e hf h
  unfold keyedVisitor at h
  dsimp only at h
  cases h1 : keyedLoop kt.deKey run ⟨c, l⟩ a with
  | ok x => rw [h1] at h; cases h
  | error e' => rw [h1] at h; cases h; exact keyedLoop_raw hr hf a (fun _ h => h) h1

theorem structVisitor_raw {b : Bool} {s s' : Str} {deny : Bool} {fs : List FieldSeed}
    (hr : ∀ f ∈ fs, Seed.Blames b f.run) : (structVisitor s s' deny fs).Raw b := by
  refine Visitor.raw_of (fun _ _ _ => ⟨_, rfl⟩) (fun _ _ _ _ _ h => raw_num h) (fun _ _ _ _ _ h => Raw.ofType h rfl)
    (fun _ _ _ => ⟨_, rfl⟩) (fun _ _ => ⟨_, rfl⟩) (fun _ _ => ⟨_, rfl⟩) ?_ ?_
  · intro c l t a e hf h
    unfold structVisitor at h
    dsimp only at h
    cases h1 : tupleLoop s' ⟨c, l⟩ 0 (fs.map fun f => (f.dflt, f.run)) a with
    | ok x => rw [h1] at h; cases h
    | error e' =>
      rw [h1] at h; cases h
      refine tupleLoop_raw (fs.map fun f => (f.dflt, f.run)) ?_ 0 a [] hf (Nat.le_refl _) (fun _ => rfl) h1
      intro p hp
      obtain ⟨f, h2, rfl⟩ := List.mem_map.1 hp
      exact hr f h2
  · intro c l t a e hf h
    unfold structVisitor at h
    dsimp only at h
    cases h1 : fieldLoop ⟨c, l⟩ deny fs a [] with
    | error e' => rw [h1] at h; cases h; exact fieldLoop_raw hr hf a [] (fun _ h => h) h1
    | ok acc =>
      rw [h1] at h
      dsimp only at h
      cases h2 : fieldFinish acc fs with
      | ok x => rw [h2] at h; cases h
      | error e' =>
        rw [h2] at h; cases h
        refine fieldFinish_raw fs ?_ h2
        intro f hf e he hfe
        rw [hfe]
        exact (fieldLoop_found a [] acc h1).2 e he f hf hfe

/-! ## Enums -/

/-- Errors of a variant point at the offending value. -/
def VariantSeed.Blames (b : Bool) : VariantSeed → Prop
  | .unit => True
  | .newtype run => Seed.Blames b run
  | .tuple V => V.Raw b
  | .struct V => V.Raw b

omit [FloatOps] in
theorem asVariant_error {s : Str} {r : R Val} {e : Error} : asVariant s r = .error e ↔ r = .error e := by
  cases r <;> simp [asVariant]

omit [FloatOps] in
theorem VariantSeed.alone_error {v : VariantSeed} {e : Error} (h : v.alone = .error e) :
    ∃ s, e = Error.ofKind (.invalidType .unitVariant s) := by
  cases v <;> cases h <;> exact ⟨_, rfl⟩

theorem VariantSeed.with_raw {b : Bool} {s : VariantSeed} (hs : s.Blames b) {c : Option Fig} {l : Bool} {k : Str}
    {v : Value} {e : Error} {t : Tag} {d : List (Str × Value)} (hf : v.Fine b) (hg : Map.get k d = some v)
    (h : s.with ⟨c, l⟩ k v = .error e) : Raw b c l (.dict t d) e := by
  have key : ∀ run : Seed, run.Blames b → MapDe.nextValue run ⟨c, l⟩ k v = .error e → Raw b c l (.dict t d) e := by
    intro run hrun h
    rw [MapDe.nextValue, R.mapErr_eq_error] at h
    obtain ⟨e', h1, rfl⟩ := h
    exact (hrun c l v e' hf h1).entry hg
  cases s with
  | unit =>
    exact key (fun de v => de.deserializeAny (unitVisitor (str "unit")) v)
      (fun _ _ _ _ hv h => any_blames (unitVisitor_raw b _) hv h) h
  | newtype run => exact key run hs h
  | tuple V => exact key (fun de v => de.deserializeAny V v) (fun _ _ _ _ hv h => any_blames hs hv h) h
  | struct V => exact key (fun de v => de.deserializeAny V v) (fun _ _ _ _ hv h => any_blames hs hv h) h

omit [FloatOps] in
theorem lookup_none_not_mem {α : Type} {s : Str} {l : List (Str × α)} (h : l.lookup s = none) : s ∉ l.map (·.1) := by
  intro hm
  obtain ⟨⟨s', x⟩, h1, rfl⟩ := List.mem_map.1 hm
  have := List.lookup_eq_none_iff.1 h _ h1
  simp at this

omit [FloatOps] in
theorem mem_of_lookup {α : Type} {s : Str} {x : α} : ∀ {l : List (Str × α)}, l.lookup s = some x → (s, x) ∈ l
  | [], h => nomatch h
  | (s', y) :: l, h => by
    rw [List.lookup_cons] at h
    split at h
    · next hs => cases h; rw [beq_iff_eq.1 hs]; exact List.mem_cons_self ..
    · exact List.mem_cons_of_mem _ (mem_of_lookup h)

theorem enum_blames {b : Bool} {name : Str} {vs : List (Str × VariantSeed)} (hv : ∀ p ∈ vs, VariantSeed.Blames b p.2)
    {c : Option Fig} {l : Bool} {v : Value} {e : Error} (hf : v.Fine b)
    (h : De.deserializeEnum ⟨c, l⟩ (enumVisitor name vs) v = .error e) : Blames b c l v e := by
  have hany : (enumVisitor name vs).Raw b :=
    Visitor.raw_of (fun _ _ _ => ⟨_, rfl⟩) (fun _ _ _ _ _ h => raw_num h) (fun _ _ _ _ _ h => Raw.ofType h rfl)
      (fun _ _ _ => ⟨_, rfl⟩) (fun _ _ => ⟨_, rfl⟩) (fun _ _ => ⟨_, rfl⟩) (fun _ _ _ _ _ _ h => Raw.ofType h rfl)
      (fun _ _ _ _ _ _ h => Raw.ofType h rfl)
  unfold De.deserializeEnum at h
  refine mapErr_blames (fun e' h' => ?_) h
  clear h
  have h := h'
  clear h'
  cases v with
  | string t s =>
    unfold enumVisitor at h
    dsimp only at h
    cases h1 : vs.lookup s with
    | none =>
      rw [h1] at h
      cases h
      exact .here ⟨lookup_none_not_mem h1, .inl ⟨t, rfl⟩⟩
    | some w =>
      rw [h1] at h
      obtain ⟨s, rfl⟩ := VariantSeed.alone_error (asVariant_error.1 h)
      exact .here (.inl (.inr (.inr ⟨rfl, .inl ⟨_, _, rfl⟩⟩)))
  | dict t d =>
    cases d with
    | nil => exact Raw.ofType (α := Val) h rfl
    | cons p r =>
      obtain ⟨k, x⟩ := p
      have hg : Map.get k ((k, x) :: r) = some x :=
        Map.get_eq_some_of_mem (Value.wf_dict.1 hf.1).1 (List.mem_cons_self ..)
      unfold enumVisitor at h
      dsimp only at h
      cases h1 : vs.lookup k with
      | none =>
        rw [h1] at h
        cases h
        exact Raw.atKey hg ⟨lookup_none_not_mem h1, .inr rfl⟩
      | some w =>
        rw [h1] at h
        exact VariantSeed.with_raw (hv _ (mem_of_lookup h1)) (hf.entry (List.mem_cons_self ..)) hg
          (asVariant_error.1 h)
  | num t n =>
    dsimp only at h
    cases h0 : n.toU32 with
    | none => rw [h0] at h; exact (any_blames hany hf h).raw
    | some i =>
      rw [h0] at h
      unfold enumVisitor at h
      dsimp only at h
      cases h1 : vs[i.toNat]? with
      | none =>
        rw [h1] at h
        cases h
        refine .here (.inl (.inl ?_))
        cases n <;> first | (cases h0; done) | skip
        all_goals
          simp only [Num.toU32, Option.some.injEq] at h0
          subst h0
          simp [Value.shown, Num.toActual]
        all_goals
          apply BitVec.eq_of_toNat_eq
          simp only [BitVec.toNat_setWidth]
          omega
      | some w =>
        rw [h1] at h
        obtain ⟨s, rfl⟩ := VariantSeed.alone_error (asVariant_error.1 h)
        exact .here (.inl (.inr (.inr ⟨rfl, .inr ⟨_, _, _, rfl, h0⟩⟩)))
  | _ => exact (any_blames hany hf h).raw

/-! ## Numbers and booleans, structs, options -/

theorem Value.Fits.mono {w : Value} {key : Option Str} {k : Kind} (l : Bool) (h : w.Fits false key k) :
    w.Fits l key k := by
  have hr : ∀ a, w.Reported false a → w.Reported l a := by
    rintro a (h | ⟨h, _⟩ | h)
    · exact .inl h
    · cases h
    · exact .inr (.inr h)
  cases k with
  | invalidType a s => exact h.imp_left (hr a)
  | invalidValue a s => exact h.imp_left (hr a)
  | _ => exact h

theorem Raw.mono {v : Value} {e : Error} (f : Fig) (l : Bool) (h : Raw b none false v e) : Raw b (some f) l v e := by
  obtain ⟨w, h1, h2, h3, h4⟩ := h
  exact ⟨w, h1, h2.mono l, h3, fun hn => ⟨(h4 hn).1, nofun⟩⟩

/-- What is said of the number a text reads as holds of the text. -/
theorem Raw.parsed {t : Tag} {s : Str} {n : Num} {e : Error} (f : Fig) (hp : Num.parse s = some n)
    (h : Raw b none false (.num t n) e) : Raw b (some f) true (.string t s) e := by
  obtain ⟨w, h1, h2, h3, h4⟩ := h
  have hleaf : ∀ {p : List Str} {u : Value}, u.Leads b p w → u = .num t n →
      w = .num t n ∧ (Value.string t s).Leads b p (.string t s) := by
    intro p u h hu
    induction h with
    | here v => exact ⟨hu, .here _⟩
    | key => cases hu
    | index => cases hu
    | skip hb hk _ ih => exact ⟨(ih h1 h2 h4 hu).1, .skip hb hk (ih h1 h2 h4 hu).2⟩
  obtain ⟨rfl, h5⟩ := hleaf h1 rfl
  have hr : ∀ a, (Value.num t n).Reported false a → (Value.string t s).Reported true a := by
    rintro a (h | ⟨h, _⟩ | ⟨h, _⟩)
    · exact .inr (.inl ⟨rfl, t, s, n, rfl, hp, h⟩)
    · cases h
    · exact .inr (.inr ⟨h, .inl ⟨t, s, rfl⟩⟩)
  refine ⟨.string t s, h5, ?_, h3, fun hn => ⟨?_, nofun⟩⟩
  · cases hk : e.head.kind <;> rw [hk] at h2
    case invalidType a x => exact h2.imp_left (hr a)
    case invalidValue a x => exact h2.imp_left (hr a)
    case invalidLength => obtain ⟨_, _, h, _⟩ := h2; cases h
    case missingField => obtain ⟨_, _, h, _⟩ := h2; cases h
    case unknownVariant =>
      obtain ⟨h6, ⟨_, h⟩ | h⟩ := h2
      · cases h
      · exact ⟨h6, .inr h⟩
    all_goals exact h2
  · rcases (h4 rfl).1 with h | ⟨_, h⟩ | ⟨_, _, ⟨_, _, _, _, h, _⟩, _⟩
    · exact .inl h
    · exact .inr (.inl ⟨rfl, h⟩)
    · exact nomatch h.of_num rfl

theorem bool_blames {b : Bool} {c : Option Fig} {l : Bool} {v : Value} {e : Error} (hf : v.Fine b)
    (h : De.deserializeBool ⟨c, l⟩ boolVisitor v = .error e) : Blames b c l v e := by
  cases c with
  | none => exact any_blames (boolVisitor_raw b) hf h
  | some f =>
    unfold De.deserializeBool at h
    dsimp only at h
    refine mapErr_blames (fun e' h' => ?_) h
    have hi : (∃ x, De.interpretAsBool ⟨some f, l⟩ v = .bool v.tag x) ∨ De.interpretAsBool ⟨some f, l⟩ v = v := by
      unfold De.interpretAsBool
      cases l with
      | false => exact .inr rfl
      | true =>
        dsimp only
        cases v.toBoolLossy with
        | none => exact .inr rfl
        | some x => exact .inl ⟨x, rfl⟩
    rcases hi with ⟨x, hx⟩ | hx
    · rw [hx] at h'; cases h'
    · rw [hx] at h'
      exact (any_blames (c := none) (l := false) (boolVisitor_raw b) hf h').raw.mono f l

theorem num_blames {b : Bool} {V : Visitor Val} (hV : V.Raw b) {c : Option Fig} {l : Bool} {v : Value} {e : Error}
    (hf : v.Fine b) (h : De.deserializeNum ⟨c, l⟩ V v = .error e) : Blames b c l v e := by
  cases c with
  | none => exact any_blames hV hf h
  | some f =>
    unfold De.deserializeNum at h
    dsimp only at h
    refine mapErr_blames (fun e' h' => ?_) h
    have key : De.plain.deserializeAny V v = .error e' → Raw b (some f) l v e' := fun h' =>
      (any_blames (c := none) (l := false) hV hf h').raw.mono f l
    unfold De.interpretAsNum at h'
    cases l with
    | false => exact key h'
    | true =>
      dsimp only at h'
      cases v with
      | string t s =>
        cases hp : Num.parse s with
        | none =>
          simp only [Value.toNumLossy, hp] at h'
          exact key h'
        | some n =>
          simp only [Value.toNumLossy, hp] at h'
          exact (any_blames (c := none) (l := false) hV ⟨(Value.wf_of_scalar rfl rfl : (Value.num t n).WF), fun _ => rfl⟩ h').raw.parsed f hp
      | num t n => exact key h'
      | _ => exact key h'

theorem struct_blames {b : Bool} {name : Str} (hname : magicNames.contains name = false) {V : Visitor Val} (hV : V.Raw b)
    {c : Option Fig} {l : Bool} {v : Value} {e : Error} (hf : v.Fine b)
    (h : De.deserializeStruct ⟨c, l⟩ name V v = .error e) : Blames b c l v e := by
  cases c with
  | none => exact any_blames hV hf h
  | some f =>
    simp only [magicNames, List.contains_cons, List.contains_nil, Bool.or_false, Bool.or_eq_false_iff,
      beq_eq_false_iff_ne] at hname
    unfold De.deserializeStruct at h
    dsimp only at h
    rw [if_neg hname.1, if_neg hname.2.1, if_neg hname.2.2] at h
    exact mapErr_blames (fun e' h' => (any_blames hV hf h').raw) h

theorem option_blames {b : Bool} {run : Seed} (hr : run.Blames b)
    {c : Option Fig} {l : Bool} {v : Value} {e : Error} (hf : v.Fine b)
    (h : De.deserializeOption ⟨c, l⟩ (optionVisitor run) v = .error e) : Blames b c l v e := by
  have hsome : ∀ e', (optionVisitor run).visitSome ⟨c, l⟩ v = .error e' → Blames b c l v e' := by
    intro e' h'
    unfold optionVisitor at h'
    dsimp only at h'
    cases h1 : run ⟨c, l⟩ v with
    | ok x => rw [h1] at h'; cases h'
    | error e'' => rw [h1] at h'; cases h'; exact hr c l v _ hf h1
  unfold De.deserializeOption at h
  cases c with
  | none =>
    dsimp only at h
    cases v with
    | empty t x => cases x <;> exact nomatch h
    | _ => exact hsome e h
  | some f =>
    dsimp only at h
    refine mapErr_blames (fun e' h' => ?_) h
    cases v with
    | empty t x => cases x <;> exact nomatch h'
    | _ => exact (hsome e' h').raw

theorem message_blames {b : Bool} {c : Option Fig} {l : Bool} {v : Value} {m : Str} :
    Figment.Blames b c l v (Error.ofKind (.message m)) := ⟨v, .here v, trivial, rfl, fun _ => .inr (.inl ⟨rfl, rfl, rfl⟩)⟩

theorem unsupported_blames {b : Bool} {s : Str} : Seed.Blames b (fun _ _ => De.unsupported s) := by
  intro c l v e hf h
  cases h
  exact message_blames

theorem parsedVisitor_raw (b : Bool) (s : Str) (parse : Str → Except Str Val) : (parsedVisitor s parse).Raw b := by
  intro c l v e _ h
  have text : ∀ {v : Value} {t : Str}, (parsedVisitor s parse).visitStr t = .error e → Figment.Raw b c l v e := by
    intro v t h
    unfold parsedVisitor at h
    dsimp only at h
    split at h
    · cases h
    · cases h; exact .here trivial
  cases v with
  | string t x => exact text h
  | char t x => exact text (t := [x]) h
  | num t n =>
    have h' : n.deserializeAny (parsedVisitor s parse) = .error e := h
    rw [Num.deserializeAny_visited] at h'
    exact raw_num h'
  | empty t x => cases x <;> exact .ofType h rfl
  | _ => exact .ofType h rfl

theorem anyVisitor_raw {b : Bool} {s : Str} {run : Seed} (hr : run.Blames b) : (anyVisitor s run).Raw b := by
  refine Visitor.raw_of (fun _ _ h => nomatch h) (fun _ _ _ n _ h => ?_) (fun _ _ _ _ _ h => nomatch h)
    (fun _ _ h => nomatch h) (fun _ h => nomatch h) (fun _ h => nomatch h) ?_ ?_
  · rcases any_num s run n with ⟨_, h'⟩ | ⟨_, h'⟩ <;> rw [h'] at h
    · cases h
    · exact raw_num h
  · intro c l t a e hf h
    unfold anyVisitor at h
    dsimp only at h
    cases h1 : seqLoop run ⟨c, l⟩ 0 a with
    | ok x => rw [h1] at h; cases h
    | error e' => rw [h1] at h; cases h; exact seqLoop_raw hr a [] hf h1
  · intro c l t a e hf h
    unfold anyVisitor at h
    dsimp only at h
    cases h1 : mapLoop run ⟨c, l⟩ a with
    | ok x => rw [h1] at h; cases h
    | error e' => rw [h1] at h; cases h; exact mapLoop_raw hr hf a (fun _ h => h) h1

theorem anyN_blames (b : Bool) (s : Str) : ∀ n, (anyN s n).Blames b
  | 0 => fun _ _ _ _ _ h => by cases h; exact message_blames
  | n + 1 => fun _ _ _ _ hf h => any_blames (anyVisitor_raw (anyN_blames b s n)) hf h

/-- An error of what is inside a magic struct. -/
theorem Blames.skip {b : Bool} (hb : b = true) {c : Option Fig} {l : Bool} {k : Str} (hk : k ∈ reservedFields) {v : Value}
    {e : Error} (h : Blames b c l v e) : Blames b c l v (De.err ⟨c, l⟩ v.tag (MapDe.err k v e)) := by
  refine Raw.blames ?_
  obtain ⟨w, h1, h2, h3, h4⟩ := h
  obtain ⟨hp, hkd, hpr, ht, hmeta, hprof⟩ := MapDe.err_head k v e
  refine ⟨w, hp ▸ .skip hb hk h1, ?_, hpr h3, fun hn => ?_⟩
  · rw [hp, hkd]; exact Value.fits_cons k h2
  · rcases h4 hn with ⟨h5, h6⟩ | ⟨_, rfl, he⟩ | ⟨hm, h5, h6⟩
    · refine ⟨.inl ?_, fun hc => ?_⟩
      · rw [ht, h5]
        split
        · next hd =>
          rcases h1.inside hn with hw | hw
          · rw [hw]
          · rw [Tag.not_isDefault_of_named hw] at hd; cases hd
        · rfl
      · rw [hmeta, hprof]; rw [hc] at h6; exact h6
    · rw [ht, hmeta, hprof, he]
      exact ⟨.inl rfl, fun _ => ⟨rfl, rfl⟩⟩
    · refine ⟨.inr (.inr ⟨hkd ▸ hm, e.head.tag, hp ▸ h5.skip hb hk, .inl ?_⟩), fun hc => ?_⟩
      · rw [ht]
        split
        · next hd =>
          rcases h5.inside hn with hw | hw
          · exact hw.symm
          · rw [Tag.not_isDefault_of_named hw] at hd; cases hd
        · rfl
      · rw [hmeta, hprof]; rw [hc] at h6; exact h6

theorem magic_blames {b : Bool} (hb : b = true) {n name : Str} {deny : Bool} {fs : List (Str × Option Val × Ty)}
    (hs : Ty.magicShape name fs = true) (hfs : ∀ f ∈ Ty.deFields fs, Seed.Blames b f.run) {c : Option Fig} {l : Bool}
    {v : Value} {e : Error} (hf : v.Fine b) (h : (Ty.struct n name deny fs).de ⟨c, l⟩ v = .error e) :
    Blames b c l v e := by
  cases c with
  | none => exact any_blames (structVisitor_raw hfs) hf h
  | some f =>
    unfold Ty.magicShape at hs
    split at hs
    · next k0 k1 t =>
      simp only [Bool.and_eq_true, beq_iff_eq] at hs
      obtain ⟨⟨rfl, rfl⟩, rfl⟩ := hs
      have ht := hfs ⟨Tagged.FIELD1, none, t.isOption, t.de⟩ (by simp [Ty.deFields])
      rw [Ty.tagged_de' t f l v (hf.2 hb)] at h
      cases h1 : t.de ⟨some f, l⟩ v with
      | ok x => rw [h1] at h; cases h
      | error e' => rw [h1] at h; cases h; exact (ht _ _ v e' hf h1).skip hb (by decide)
    · next k0 k1 =>
      simp only [Bool.and_eq_true, beq_iff_eq] at hs
      obtain ⟨⟨rfl, rfl⟩, rfl⟩ := hs
      have ht := hfs ⟨RelPath.FIELD1, none, false, Ty.pathBuf.de⟩ (by simp [Ty.deFields, Ty.isOption])
      rw [Ty.relPath_de' f l v (hf.2 hb)] at h
      cases h1 : Ty.pathBuf.de ⟨some f, l⟩ v with
      | ok x => rw [h1] at h; cases h
      | error e' => rw [h1] at h; cases h; exact (ht _ _ v e' hf h1).skip hb (by decide)
    · cases hs

mutual
theorem Ty.blames (b : Bool) : ∀ t : Ty, t.ordinary b = true → t.de.Blames b
  | .bool, _ => fun _ _ _ _ hf h => bool_blames hf h
  | .int .u128, _ => unsupported_blames
  | .int .i128, _ => unsupported_blames
  | .int .u8, _ => fun _ _ _ _ hf h => num_blames (intVisitor_raw b _) hf h
  | .int .u16, _ => fun _ _ _ _ hf h => num_blames (intVisitor_raw b _) hf h
  | .int .u32, _ => fun _ _ _ _ hf h => num_blames (intVisitor_raw b _) hf h
  | .int .u64, _ => fun _ _ _ _ hf h => num_blames (intVisitor_raw b _) hf h
  | .int .usize, _ => fun _ _ _ _ hf h => num_blames (intVisitor_raw b _) hf h
  | .int .i8, _ => fun _ _ _ _ hf h => num_blames (intVisitor_raw b _) hf h
  | .int .i16, _ => fun _ _ _ _ hf h => num_blames (intVisitor_raw b _) hf h
  | .int .i32, _ => fun _ _ _ _ hf h => num_blames (intVisitor_raw b _) hf h
  | .int .i64, _ => fun _ _ _ _ hf h => num_blames (intVisitor_raw b _) hf h
  | .int .isize, _ => fun _ _ _ _ hf h => num_blames (intVisitor_raw b _) hf h
  | .f32, _ => fun _ _ _ _ hf h => num_blames (f32Visitor_raw b) hf h
  | .f64, _ => fun _ _ _ _ hf h => num_blames (f64Visitor_raw b) hf h
  | .char, _ => fun _ _ _ _ hf h => any_blames (charVisitor_raw b) hf h
  | .string, _ => fun _ _ _ _ hf h => any_blames (stringVisitor_raw b) hf h
  | .pathBuf, _ => fun _ _ _ _ hf h => any_blames (pathVisitor_raw b) hf h
  | .unit, _ => fun _ _ _ _ hf h => any_blames (unitVisitor_raw b _) hf h
  | .unitStruct n, _ => fun _ _ _ _ hf h => any_blames (unitVisitor_raw b _) hf h
  | .option t, ht => fun _ _ _ _ hf h => option_blames (t.blames b ht) hf h
  | .newtype n t, ht => fun c l v e hf h => by
    have h' : (match t.de ⟨c, l⟩ v with
      | .ok x => Except.ok (Val.newtype x)
      | .error e => .error e) = .error e := h
    cases h1 : t.de ⟨c, l⟩ v with
    | ok x => rw [h1] at h'; cases h'
    | error e' => rw [h1] at h'; cases h'; exact t.blames b ht c l v _ hf h1
  | .seq t, ht => fun _ _ _ _ hf h => any_blames (seqVisitor_raw (t.blames b ht)) hf h
  | .tuple ts, ht => fun _ _ _ _ hf h => any_blames (tupleVisitor_raw (Ty.blamesEach b ts ht)) hf h
  | .tupleStruct n ts, ht => fun _ _ _ _ hf h => any_blames (tupleVisitor_raw (Ty.blamesEach b ts ht)) hf h
  | .flag, _ => fun _ _ _ _ hf h => any_blames (flagVisitor_raw b) hf h
  | .pairs t, ht => fun _ _ _ _ hf h => any_blames (pairsVisitor_raw (t.blames b ht)) hf h
  | .keyed kt t, ht => fun _ _ _ _ hf h => any_blames (keyedVisitor_raw (t.blames b ht)) hf h
  | .parsed s parse _, _ => fun _ _ _ _ hf h => any_blames (parsedVisitor_raw b s parse) hf h
  | .via t conv _, ht => fun c l v e hf h => by
    rw [Ty.ordinary, Bool.and_eq_true] at ht
    rw [Ty.de] at h
    unfold converted at h
    dsimp only at h
    cases h1 : t.de ⟨c, l⟩ v with
    | error e' => rw [h1] at h; cases h; exact t.blames b ht.2 c l v _ hf h1
    | ok x =>
      rw [h1] at h
      dsimp only at h
      split at h
      · cases h
      · cases h; exact message_blames
  | .any s, _ => fun _ _ v _ hf h => anyN_blames b s v.depth _ _ _ _ hf h
  | .map t, ht => fun _ _ _ _ hf h => any_blames (mapVisitor_raw (t.blames b ht)) hf h
  | .struct n name deny fs, ht => fun _ _ _ _ hf h => by
    simp only [Ty.ordinary, Bool.and_eq_true, Bool.or_eq_true, Bool.not_eq_true'] at ht
    rcases ht.1 with hname | ⟨hb, hshape⟩
    · exact struct_blames hname (structVisitor_raw (Ty.blamesFields b fs ht.2)) hf h
    · exact magic_blames hb hshape (Ty.blamesFields b fs ht.2) hf h
  | .enum n vs, ht => fun _ _ _ _ hf h => enum_blames (Ty.blamesVariants b n vs ht) hf h
  | .value, ht => fun c l v e hf h => by
    simp only [Ty.ordinary] at ht
    have h' : asValue (Value.de ⟨c, l⟩ v) = .error e := h
    cases c with
    | none =>
      rw [Value.de_lossy none l false] at h'
      have := Value.plain_ok v hf.1 (Value.noReserved_of_unreserved v (hf.2 ht))
      rw [show Value.de ⟨none, false⟩ v = Value.de De.plain v from rfl, this] at h'
      cases h'
    | some f => rw [Value.de_ok f l v hf.1 (Value.noReserved_of_unreserved v (hf.2 ht))] at h'; cases h'
  | .tag, _ => fun c l v e hf h => by
    have h' : asTag (De.deserializeAny ⟨c, l⟩ tagVisitor v) = .error e := h
    cases h1 : De.deserializeAny ⟨c, l⟩ tagVisitor v with
    | ok x => rw [h1] at h'; cases h'
    | error e' => rw [h1] at h'; cases h'; exact any_blames (tagVisitor_raw b) hf h1
theorem Ty.blamesEach (b : Bool) : ∀ ts : List Ty, Ty.ordinaryEach b ts = true →
    ∀ run ∈ Ty.deEach ts, Seed.Blames b run
  | [], _ => nofun
  | t :: ts, ht => by
    simp only [Ty.ordinaryEach, Bool.and_eq_true] at ht
    intro run hm
    rw [Ty.deEach] at hm
    rcases List.mem_cons.1 hm with rfl | hm
    · exact t.blames b ht.1
    · exact Ty.blamesEach b ts ht.2 run hm
theorem Ty.blamesFields (b : Bool) : ∀ fs : List (Str × Option Val × Ty), Ty.ordinaryFields b fs = true →
    ∀ f ∈ Ty.deFields fs, Seed.Blames b f.run
  | [], _ => nofun
  | (n, d, t) :: fs, ht => by
    simp only [Ty.ordinaryFields, Bool.and_eq_true] at ht
    intro f hm
    rw [Ty.deFields] at hm
    rcases List.mem_cons.1 hm with rfl | hm
    · exact t.blames b ht.1
    · exact Ty.blamesFields b fs ht.2 f hm
theorem Ty.blamesVariants (b : Bool) (enum : Str) : ∀ vs : List (Str × VTy), Ty.ordinaryVariants b vs = true →
    ∀ p ∈ Ty.deVariants enum vs, VariantSeed.Blames b p.2
  | [], _ => nofun
  | (n, v) :: vs, ht => by
    simp only [Ty.ordinaryVariants, Bool.and_eq_true] at ht
    intro p hm
    rw [Ty.deVariants] at hm
    rcases List.mem_cons.1 hm with rfl | hm
    · exact v.blames b _ ht.1
    · exact Ty.blamesVariants b enum vs ht.2 p hm
theorem VTy.blames (b : Bool) : ∀ (v : VTy) (name : Str), v.ordinary b = true → (v.de name).Blames b
  | .unit, _, _ => trivial
  | .newtype t, _, ht => t.blames b ht
  | .tuple ts, _, ht => tupleVisitor_raw (Ty.blamesEach b ts ht)
  | .struct _ fs, _, ht => structVisitor_raw (Ty.blamesFields b fs ht)
end

omit [FloatOps] in
theorem profile_mapErr {α : Type} {f : Fig} {l : Bool} {t : Tag} {r : R α} {e : Error}
    (h : R.mapErr (De.err ⟨some f, l⟩ t) r = .error e) : e.head.profile.isSome = true := by
  rw [R.mapErr_eq_error] at h
  obtain ⟨e', _, rfl⟩ := h
  rw [(De.err_resolved (some f) l t e' nofun).2]
  rfl

omit [FloatOps] in
theorem profile_any {α : Type} {f : Fig} {l : Bool} {V : Visitor α} {v : Value} {e : Error}
    (h : De.deserializeAny ⟨some f, l⟩ V v = .error e) : e.head.profile.isSome = true := by
  rw [any_visit] at h
  exact profile_mapErr h

/-- Whatever error a type that is not `loose` gives has passed the deserialiser of the value. -/
theorem Ty.tight : ∀ t : Ty, t.loose = false → ∀ (f : Fig) (l : Bool) (v : Value) (e : Error),
    t.de ⟨some f, l⟩ v = .error e → e.head.profile.isSome = true
  | .int .u128, ht, _, _, _, _, _ => nomatch ht
  | .int .i128, ht, _, _, _, _, _ => nomatch ht
  | .via _ _ _, ht, _, _, _, _, _ => nomatch ht
  | .bool, _, _, _, _, _, h => profile_mapErr h
  | .int .u8, _, _, _, _, _, h => profile_mapErr h
  | .int .u16, _, _, _, _, _, h => profile_mapErr h
  | .int .u32, _, _, _, _, _, h => profile_mapErr h
  | .int .u64, _, _, _, _, _, h => profile_mapErr h
  | .int .usize, _, _, _, _, _, h => profile_mapErr h
  | .int .i8, _, _, _, _, _, h => profile_mapErr h
  | .int .i16, _, _, _, _, _, h => profile_mapErr h
  | .int .i32, _, _, _, _, _, h => profile_mapErr h
  | .int .i64, _, _, _, _, _, h => profile_mapErr h
  | .int .isize, _, _, _, _, _, h => profile_mapErr h
  | .f32, _, _, _, _, _, h => profile_mapErr h
  | .f64, _, _, _, _, _, h => profile_mapErr h
  | .char, _, _, _, _, _, h => profile_any h
  | .string, _, _, _, _, _, h => profile_any h
  | .pathBuf, _, _, _, _, _, h => profile_any h
  | .unit, _, _, _, _, _, h => profile_any h
  | .unitStruct _, _, _, _, _, _, h => profile_any h
  | .option _, _, _, _, _, _, h => profile_mapErr h
  | .newtype _ t, ht, f, l, v, e, h => by
    have h' : (match t.de ⟨some f, l⟩ v with
      | .ok x => Except.ok (Val.newtype x)
      | .error e => .error e) = .error e := h
    cases h1 : t.de ⟨some f, l⟩ v with
    | ok x => rw [h1] at h'; cases h'
    | error e' => rw [h1] at h'; cases h'; exact t.tight ht f l v _ h1
  | .seq _, _, _, _, _, _, h => profile_any h
  | .tuple _, _, _, _, _, _, h => profile_any h
  | .tupleStruct _ _, _, _, _, _, _, h => profile_any h
  | .map _, _, _, _, _, _, h => profile_any h
  | .pairs _, _, _, _, _, _, h => profile_any h
  | .keyed _ _, _, _, _, _, _, h => profile_any h
  | .flag, _, _, _, _, _, h => profile_any h
  | .parsed _ _ _, _, _, _, _, _, h => profile_any h
  | .any s, _, f, l, v, e, h => by rw [Ty.any_eq] at h; exact profile_any h
  | .flat _ _ _ _, _, _, _, _, _, h => profile_any h
  | .struct _ _ _ _, _, _, _, _, _, h => profile_mapErr h
  | .enum _ _, _, _, _, _, _, h => profile_mapErr h
  | .value, _, f, l, v, e, h => by
    have h' : asValue (Value.de ⟨some f, l⟩ v) = .error e := h
    cases h1 : Value.de ⟨some f, l⟩ v with
    | ok x => rw [h1] at h'; cases h'
    | error e' =>
      rw [h1] at h'; cases h'
      unfold Value.de at h1
      exact profile_mapErr h1
  | .tag, _, f, l, v, e, h => by
    have h' : asTag (De.deserializeAny ⟨some f, l⟩ tagVisitor v) = .error e := h
    cases h1 : De.deserializeAny ⟨some f, l⟩ tagVisitor v with
    | ok x => rw [h1] at h'; cases h'
    | error e' => rw [h1] at h'; cases h'; exact profile_any h1

/-- What an error says of provenance is that of the value it points at; or it is a message and has that of the array the
value is an element of; or it is a message on the whole and says nothing. -/
theorem Ty.blames_always {b : Bool} {t : Ty} (ht : t.ordinary b = true) {f : Fig} {l : Bool} {v : Value} {e : Error}
    (hf : v.Fine b) (hn : v.insideNamed = true) (h : t.de ⟨some f, l⟩ v = .error e) :
    ∃ w, v.Leads b e.head.path w ∧ w.Fits l e.head.path.getLast? e.head.kind ∧
      (((e.head.tag = w.tag ∨ ((∃ m, e.head.kind = .message m) ∧ v.LeadsInto b e.head.path e.head.tag w)) ∧
        e.head.metadata = Map.get e.head.tag f.metadata ∧
        e.head.profile = some (e.head.tag.profile.getD f.profile)) ∨
      (t.loose = true ∧ ∃ m, e = Error.ofKind (.message m))) := by
  obtain ⟨w, h1, h2, _, h4⟩ := t.blames b ht (some f) l v e hf h
  have msg : e.head.kind.isMessage = true → ∃ m, e.head.kind = .message m := by
    intro hm
    cases hk : e.head.kind with
    | message m => exact ⟨m, rfl⟩
    | _ => rw [hk] at hm; cases hm
  refine ⟨w, h1, h2, ?_⟩
  rcases h4 hn with ⟨h5, h6⟩ | ⟨hm, _, he⟩ | ⟨hm, h5, h6⟩
  · exact .inl ⟨.inl h5, h6⟩
  · obtain ⟨m, hm⟩ := msg hm
    rw [hm] at he
    refine .inr ⟨?_, m, he⟩
    cases hl : t.loose with
    | true => rfl
    | false =>
      have := t.tight hl f l v e h
      rw [he] at this
      cases this
  · exact .inl ⟨.inr ⟨msg hm, h5⟩, h6⟩

/-- An error of a value whose arrays are uniform carries the provenance of the value it points at, unless it is that of
the conversion of the whole. -/
theorem Ty.blames_sure {b : Bool} {t : Ty} (ht : t.ordinary b = true) {f : Fig} {l : Bool} {v : Value} {e : Error}
    (hf : v.Fine b) (hn : v.insideNamed = true) (h : t.de ⟨some f, l⟩ v = .error e)
    (hk : (∀ m, e.head.kind ≠ .message m) ∨ (v.uniform = true ∧ (t.loose = false ∨ e.head.path ≠ []))) :
    ∃ w, v.Leads b e.head.path w ∧ w.Fits l e.head.path.getLast? e.head.kind ∧ e.head.tag = w.tag ∧
      e.head.metadata = Map.get w.tag f.metadata ∧ e.head.profile = some (w.tag.profile.getD f.profile) := by
  obtain ⟨w, h1, h2, ⟨h5, h6⟩ | ⟨hl, m, he⟩⟩ := Ty.blames_always ht hf hn h
  · have h7 : e.head.tag = w.tag := by
      rcases h5 with h5 | ⟨⟨m, hm⟩, h5⟩
      · exact h5
      · rcases hk with hk | ⟨hk, _⟩
        · exact absurd hm (hk m)
        · exact (h5.uniform hk).symm
    exact ⟨w, h1, h2, h7, h7 ▸ h6⟩
  · exfalso
    rw [he] at hk
    rcases hk with hk | ⟨_, hk | hk⟩
    · exact hk m rfl
    · rw [hl] at hk; cases hk
    · exact hk rfl

end Figment
