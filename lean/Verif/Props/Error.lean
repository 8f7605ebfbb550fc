import Verif.Lemmas.Error
import Verif.Lemmas.Find
import Verif.Spec.Examples
/-!
# C48: error chains
-/
namespace Figment

/-- **C48**: iterating over an error ends, `count` is the number of errors it yields, and none of those has
others behind it. -/
theorem C48_count (e : Error) :
    ∃ l, Error.Yields (some e) l ∧ l.length = e.count ∧ ∀ x ∈ l, x.prev = none ∧ x.count = 1 := by
  refine ⟨e.items, Error.yields_items e, (Error.count_eq e).symm, fun x hx => ?_⟩
  have := Error.items_prev hx
  refine ⟨this, ?_⟩
  rw [Error.count_eq, Error.items_of_prev_none this]; rfl

/-- **C48**: `a.chain(b)` yields `b` alone first (kind, path, profile, metadata and tag as they were), then
all that `a` yields. Any errors already behind `b` are dropped. -/
theorem C48_chain (a b : Error) (l : List Error) (h : Error.Yields (some a) l) :
    Error.Yields (some (a.chain b)) (.last b.head :: l) ∧ (a.chain b).count = a.count + 1 := by
  rw [Error.yields_iff] at h
  subst h
  refine ⟨Error.yields_iff.2 rfl, ?_⟩
  rw [Error.count_eq, Error.count_eq, Error.chain, Error.items_setPrev_some]; rfl

/-- **C48**: `with_path` of components joined by dots appends those that are not empty, in order, to the
path of the first error and changes nothing else. (Every string is such a join, `C48_every_path`.) -/
theorem C48_with_path (e : Error) (parts : List Str) (hne : parts ≠ []) (hdot : ∀ k ∈ parts, '.' ∉ k) :
    (e.withPath (Str.join (str ".") parts)).head
      = { e.head with path := e.head.path ++ parts.filter (fun k => k ≠ []) } ∧
    (e.withPath (Str.join (str ".") parts)).prev = e.prev := by
  have : Str.join (str ".") parts = Str.join ['.'] parts := rfl
  rw [Error.withPath, this, Str.splitOn_join hne hdot]
  refine ⟨?_, Error.prev_mapHead _ _⟩
  rw [Error.head_mapHead]
  congr 2
  refine List.filter_congr fun k _ => ?_
  cases k <;> simp

/-- Every path text is a join of components without dots. -/
theorem C48_every_path (path : Str) :
    ∃ parts, parts ≠ [] ∧ (∀ k ∈ parts, '.' ∉ k) ∧ Str.join (str ".") parts = path :=
  ⟨Str.splitOn '.' path, Str.splitOn_ne_nil _ _, fun _ hk => Str.not_mem_of_mem_splitOn hk, Str.join_splitOn '.' path⟩

example : Error.Yields (some ((Error.ofKind (.message (str "1"))).chain (Error.ofKind (.message (str "2")))))
    [Error.ofKind (.message (str "2")), Error.ofKind (.message (str "1"))] := Error.yields_iff.2 rfl
example : ((Error.ofKind (.message (str "1"))).withPath (str "a..b")).head.path = [str "a", str "b"] := by decide

end Figment
