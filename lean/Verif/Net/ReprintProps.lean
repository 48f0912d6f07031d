import Verif.Net.Props
/-! # C58: a host list that was read is printed and read back -/
namespace Nebula
namespace Net

theorem each_mem_right {α β : Type} {R : α → β → Prop} : ∀ {l : List α} {m : List β}, Each R l m → ∀ b ∈ m, ∃ a ∈ l, R a b
  | [], [], _, b, hb => by cases hb
  | a :: l, b :: m, h, x, hx => by
    rcases List.mem_cons.1 hx with rfl | hx
    · exact ⟨a, List.mem_cons_self, h.1⟩
    · obtain ⟨y, hy, hr⟩ := each_mem_right h.2 x hx
      exact ⟨y, List.mem_cons_of_mem _ hy, hr⟩
  | [], _ :: _, h, _, _ => h.elim
  | _ :: _, [], h, _, _ => h.elim

theorem mem_join_of {c : UInt8} {sep : Bytes} : ∀ {es : List Bytes} {e : Bytes}, e ∈ es → c ∈ e → c ∈ join sep es
  | [], _, h, _ => by cases h
  | [x], e, h, hc => by simp only [List.mem_singleton] at h; subst h; simpa [join] using hc
  | x :: y :: l, e, h, hc => by
    rw [join]
    · rcases List.mem_cons.1 h with rfl | h
      · simp [hc]
      · have := mem_join_of (sep := sep) h hc
        simp [this]
    · simp

/-- **C58 (read, printed and read).** A host list that was read from any text without a NUL, whatever blanks, signs, leading zeros and empty entries the text has: its printed form is read as
the same list. -/
theorem C58_reprint (s : Bytes) (hosts : List HostAddr) (h0 : (0 : UInt8) ∉ s) (h : toHosts s = some hosts) : toHosts (toHostsStr hosts) = some hosts := by
  obtain ⟨⟨es, h1, h2, h3⟩, hall⟩ := C58_accepts s
  have he := (hall es h1 h2 h3 hosts).1 h
  refine C58_roundtrip hosts fun x hx => ?_
  obtain ⟨e, hm, sp, n, h4, _, h6, h7, hn⟩ := each_mem_right he x hx
  have hm' : e ∈ es := (List.mem_filter.1 hm).1
  obtain ⟨_, _, _, _, _, _, _, _, _, l1, l2, _⟩ := hn
  refine ⟨⟨fun hz => h0 ?_, fun hz => h3 e hm' ?_, h6, h7⟩, l1, l2⟩
  · rw [← h2]; exact mem_join_of hm' (by rw [h4]; simp [hz])
  · rw [h4]; simp [hz]

example : (0 : UInt8) ∉ ascii " a:+007,,b:-1 " ∧ toHosts (ascii " a:+007,,b:-1 ") = some [⟨ascii "a", 7⟩, ⟨ascii "b", -1⟩] := by decide +kernel

/-- C58: the text read need not be the text printed. -/
example : toHostsStr [⟨ascii "a", 7⟩, ⟨ascii "b", -1⟩] = ascii "a:7, b:-1" := by decide +kernel

end Net
end Nebula
