import Verif.Driver.Nop
/-! C116: NopObjectHandle. -/
namespace Disko.Driver

/-- What the documentation (nopobject.go:11-13) promises for a reply to a call: the error, if the method returns one, is ErrNotImplemented; every other value is the zero value;
the buffer given to ReadBlocks keeps its bytes. -/
def NopReply : HandleCall → HandleReply → Prop
  | .stat, r => r = .stat FileStat.zero
  | .name, r | .absolutePath, r => r = .str []
  | .sameAs, r => r = .bool false
  | .listDir, r => r = .names [] (some .notImplemented)
  | .readBlocks _ buffer, r => r = .block buffer (some .notImplemented)
  | _, r => r = .err (some .notImplemented)

/-- The property: every method of a NopObjectHandle returns, and so. -/
def C116_statement : Prop := ∀ c, ∃ r, nopZero c = .ret r ∧ NopReply c r

/-- Close and SameAs are not defined on the type: they are those of an embedded nil interface. -/
theorem C116_refuted : ¬ C116_statement := by
  intro h
  obtain ⟨r, h, _⟩ := h .close
  cases h

/-- **C116 (partial)**: every method but SameAs and Close, whatever handle is embedded. -/
theorem C116_other_methods_partial (inner : Option (HandleCall → Outcome HandleReply)) (c : HandleCall) (h1 : c ≠ .sameAs) (h2 : c ≠ .close) :
    ∃ r, nopCall inner c = .ret r ∧ NopReply c r := by
  cases c with
  | sameAs => exact absurd rfl h1
  | close => exact absurd rfl h2
  | _ => exact ⟨_, rfl, rfl⟩

/-- C116, exactly where it fails: SameAs and Close panic, and no other method does. -/
theorem C116_panics_partial (c : HandleCall) : (nopZero c = .panic ↔ c = .sameAs ∨ c = .close) ∧ nopZero c ≠ .timeout := by
  constructor
  · constructor
    · intro h
      by_cases h1 : c = .sameAs
      · exact .inl h1
      · by_cases h2 : c = .close
        · exact .inr h2
        · obtain ⟨r, hr, _⟩ := C116_other_methods_partial none c h1 h2
          rw [show nopZero c = _ from hr] at h
          cases h
    · rintro (rfl | rfl) <;> rfl
  · intro h
    by_cases h1 : c = .sameAs
    · subst h1; cases h
    · by_cases h2 : c = .close
      · subst h2; cases h
      · obtain ⟨r, hr, _⟩ := C116_other_methods_partial none c h1 h2
        rw [show nopZero c = _ from hr] at h
        cases h

example : nopZero (.readBlocks 3 [1, 2]) = .ret (.block [1, 2] (some .notImplemented)) ∧ nopZero .sameAs = .panic := ⟨rfl, rfl⟩

end Disko.Driver
