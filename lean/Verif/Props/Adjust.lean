/- C08 for the offset adjustments (the seeks are in Props/Format.lean). -/
import Verif.ApplyLemmas
import Verif.Props.Cpio

namespace Drpm

/-- C08: nor does `drpm_make` ever emit an offset adjustment of -2^31, for any old package. -/
theorem C08_adjust (H : Bytes → Bytes) (hH : ∀ b, (H b).length = 16) (m : MakeIn) (r : Made)
    (hl : m.archive.length < 2^63) (hf : FilesFit m) (h : makeCpio H m = .ok r) :
    ∀ p ∈ r.offadjs, p.1 < 2^32 ∧ p.2 < 2^32 ∧ p.2 ≠ 2^31 := by
  obtain ⟨⟨hw, hn⟩, _⟩ := makeCpio_facts hH hl hf h
  exact fun p hp => ⟨(hw p hp).1, (hw p hp).2, hn p hp⟩

/-- Non-vacuity: an old package with adjustments. -/
example : ∃ r, makeCpio demoH demoIn = .ok r ∧ r.offadjs = [(124, 124), (120, 120)] ∧
    (∀ p ∈ r.offadjs, p.1 < 2^32 ∧ p.2 < 2^32 ∧ p.2 ≠ 2^31) := by
  have hx : Out.okAnd (makeCpio demoH demoIn) (fun r => r.offadjs == [(124, 124), (120, 120)]) = true := by decide +kernel
  rcases hm : makeCpio demoH demoIn with r | _ | _ | _
  · rw [hm] at hx
    refine ⟨r, rfl, by simpa [Out.okAnd] using hx, C08_adjust demoH ?_ demoIn r (by decide +kernel) demo_fits hm⟩
    intro b; simp [demoH, zeros]
  all_goals (rw [hm] at hx; simp [Out.okAnd] at hx)

end Drpm
