import Verif.Lemmas.ComplainsTy
import Verif.Lemmas.Buffer
/-!
# Structs with flattened fields, compared with the struct of their other fields
-/
namespace Figment
variable [FloatOps] {c : Option Fig} {l : Bool} {n name : Str} {fs : List (Str × Option Val × Ty)}
  {conv : List Val → List (Str × Val) → Except Kind Val} {back : Val → List Val × List (Str × Val)} {v : Value}

theorem flat_vs_struct (hname : magicNames.contains name = false) (hn : (fs.map (·.1)).Nodup) (hv : v.WF) (x : Val) :
    (Ty.flat n fs conv back).de ⟨c, l⟩ v = .ok x ↔ ∃ tag d xs r, v = .dict tag d ∧
      (Ty.struct n name false fs).de ⟨c, l⟩ v = .ok (.struct xs) ∧
      Value.BuffersD (d.filter fun e => !(fs.map (·.1)).contains e.1) r ∧ conv xs r = .ok x := by
  have hn' : ((Ty.deFields fs).map (·.name)).Nodup := by rw [deFields_names]; exact hn
  rw [Ty.de, Ty.de]
  dsimp only
  simp only [struct_plain hname, structAny_iff hv hn']
  rw [any_iff]
  cases v with
  | dict tag d =>
    dsimp only
    rw [flat_iff (Value.wf_dict.1 hv).1 hn', deFields_names]
    constructor
    · rintro ⟨xs, r, h1, h2, h3⟩
      exact ⟨tag, d, xs, r, rfl, ⟨xs, rfl, .inl ⟨tag, d, rfl, h1, nofun⟩⟩, h2, h3⟩
    · rintro ⟨_, _, xs, r, h, ⟨_, h', h1⟩, h2, h3⟩
      cases h
      cases h'
      rcases h1 with ⟨_, _, h, h1, _⟩ | ⟨_, _, h, _⟩
      · cases h; exact ⟨xs, r, h1, h2, h3⟩
      · cases h
  | empty t e => cases e <;> exact ⟨nofun, fun ⟨_, _, _, _, h, _⟩ => nomatch h⟩
  | num t m => dsimp only; rw [Num.deserializeAny_visited]; exact ⟨nofun, fun ⟨_, _, _, _, h, _⟩ => nomatch h⟩
  | _ => exact ⟨nofun, fun ⟨_, _, _, _, h, _⟩ => nomatch h⟩

theorem flat_vs_struct_fails (hname : magicNames.contains name = false) (hn : (fs.map (·.1)).Nodup) (hv : v.WF)
    {p : List Str} {k : Kind} (h : Fails ((Ty.flat n fs conv back).de ⟨c, l⟩ v) p k) :
    ((∀ tag d, v ≠ .dict tag d) ∧ p = [] ∧ k = .invalidType v.shown (str "struct " ++ n)) ∨
    ∃ tag d, v = .dict tag d ∧ (Fails ((Ty.struct n name false fs).de ⟨c, l⟩ v) p k ∨
      (∃ key w p', (key, w) ∈ d ∧ key ∉ fs.map (·.1) ∧ p = key :: p' ∧ w.Refuses (str "any value") p' k) ∨
      ∃ xs r, (Ty.struct n name false fs).de ⟨c, l⟩ v = .ok (.struct xs) ∧
        Value.BuffersD (d.filter fun e => !(fs.map (·.1)).contains e.1) r ∧ conv xs r = .error k ∧ p = []) := by
  have hn' : ((Ty.deFields fs).map (·.name)).Nodup := by rw [deFields_names]; exact hn
  rw [Ty.de] at h
  rcases flatAny_fails.1 h with h | ⟨tag, d, rfl, hh⟩
  · exact .inl h
  refine .inr ⟨tag, d, rfl, ?_⟩
  have hs := (Value.wf_dict.1 hv).1
  have hstruct : Fails ((Ty.struct n name false fs).de ⟨c, l⟩ (.dict tag d)) p k ↔ DictFault false fs
      (fun key w p k => fieldFails ⟨c, l⟩ (Ty.deFields fs) key w p k)
      (fun key w => fieldGood ⟨c, l⟩ false (Ty.deFields fs) key w) d p k := by
    rw [Ty.de]
    dsimp only
    rw [struct_plain_fails hname, structAny_fails]
    constructor
    · rintro (⟨h, _⟩ | ⟨_, _, h, h'⟩ | ⟨_, _, h, _⟩)
      · exact absurd rfl (h.1 tag d)
      · cases h
        exact (structMap_fails hs hn (fun _ _ _ => Iff.rfl) (fun _ _ => Iff.rfl)).1 h'
      · cases h
    · exact fun h => .inr (.inl ⟨tag, d, rfl, (structMap_fails hs hn (fun _ _ _ => Iff.rfl) (fun _ _ => Iff.rfl)).2 h⟩)
  rcases (flatMap_fails hs hn
      (fault := fun key w p k => fieldFails ⟨c, l⟩ (Ty.deFields fs) key w p k ∨
        (key ∉ (Ty.deFields fs).map (·.name) ∧ w.Refuses (str "any value") p k))
      (good := fun key w => fieldGood ⟨c, l⟩ false (Ty.deFields fs) key w ∧
        (key ∉ (Ty.deFields fs).map (·.name) → ∃ y, w.Buffers y))
      (fun _ _ _ => flatSeed_fails) (fun _ _ => flatSeed_good)).1 hh with h | ⟨xs, r, h1, h2, h3, h4⟩
  · rcases h with ⟨i, key, w, he, hb, hg⟩ | ⟨hg, hp, hl⟩
    · rcases hb with ⟨p', hp, hb | ⟨hk, hr⟩⟩ | ⟨hb, _⟩
      · exact .inl (hstruct.2 (.inl ⟨i, key, w, he, .inl ⟨p', hp, hb⟩, fun j hj e he => (hg j hj e he).1⟩))
      · rw [deFields_names] at hk
        exact .inr (.inl ⟨key, w, p', List.mem_of_getElem? he, hk, hp, hr⟩)
      · cases hb
    · exact .inl (hstruct.2 (.inr ⟨fun e he => (hg e he).1, hp, hl⟩))
  · refine .inr (.inr ⟨xs, r, ?_, h2, h3, h4⟩)
    rw [Ty.de]
    dsimp only
    rw [struct_plain hname, structAny_iff hv hn']
    exact ⟨xs, rfl, .inl ⟨tag, d, rfl, h1, nofun⟩⟩

end Figment
