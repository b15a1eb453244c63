import Verif.RpmFileSpec
import Verif.MagicLemmas
/-!
# Lemmas about package files
-/

namespace Drpm

theorem zeros_replicate (n : Nat) : zeros n = List.replicate n 0 := rfl

theorem sigPadding_of {n pad : Nat} (h : pad < 8 ∧ (96 + 8 + n + pad) % 8 = 0) :
    sigPadding (8 + n) = pad ∧ sigPadding (96 + (8 + n)) = pad := by
  unfold sigPadding
  omega

theorem headerMagic_length : headerMagic.length = 8 := rfl

namespace PkgFile
variable {η : Type} {lib : Rpmlib η}

theorem leadsig_length (p : PkgFile lib) : p.leadsig.length = 96 + 8 + p.sigBlob.length + p.pad := by
  simp only [leadsig, List.length_append, p.isLead.1, headerMagic_length, List.length_replicate]

theorem header_length (p : PkgFile lib) : p.header.length = 8 + p.hdrBlob.length := by
  simp [header, headerMagic_length]

/-- What `readIntro` finds. -/
def intro (p : PkgFile lib) : RpmSt η := ⟨p.lead, p.sig, p.hdr, [], 0, 0⟩

theorem file_lead (p : PkgFile lib) :
    p.file = p.lead ++ (headerMagic ++ p.sigBlob ++ (List.replicate p.pad 0 ++ p.header ++ p.payload)) := by
  simp [file, leadsig, List.append_assoc]

theorem readIntro_file (p : PkgFile lib) :
    readIntro lib p.file = .ok (p.intro, p.leadsig.length + p.header.length) := by
  have l1 := p.isLead.1
  obtain ⟨s1, s2⟩ := sigPadding_of p.aligned
  have e1 : p.file.drop 96 = headerMagic ++ p.sigBlob ++ (List.replicate p.pad 0 ++ p.header ++ p.payload) := by
    rw [file_lead, List.drop_append_of_le_length (by omega), List.drop_of_length_le (by omega), List.nil_append]
  have e2 : p.file.drop (96 + (8 + p.sigBlob.length) + p.pad) = headerMagic ++ p.hdrBlob ++ p.payload := by
    have : p.file = p.leadsig ++ (headerMagic ++ p.hdrBlob ++ p.payload) := by
      simp [file, header, List.append_assoc]
    rw [this, List.drop_append_of_le_length (by rw [leadsig_length]; omega), List.drop_of_length_le (by rw [leadsig_length]; omega),
      List.nil_append]
  have e3 : p.file.take 96 = p.lead := by
    rw [file_lead, List.take_append_of_le_length (by omega), List.take_of_length_le (by omega)]
  have e4 : p.file.take 4 = leadMagic := by
    obtain ⟨t, ht⟩ := p.isLead.2
    rw [file_lead, ← ht, List.append_assoc]
    rfl
  have e5 : ¬ p.file.length < 96 := by rw [file_lead, List.length_append]; omega
  unfold readIntro
  rw [if_neg e5, if_neg (by rw [e4]; exact fun h => h rfl), e1, p.sigOk.read]
  simp only
  rw [s2, e2, p.hdrOk.read]
  simp only
  rw [e3, leadsig_length, header_length, ← Nat.add_assoc 96 8]
  rfl

theorem drop_file (p : PkgFile lib) : p.file.drop (p.leadsig.length + p.header.length) = p.payload := by
  unfold file
  rw [List.drop_append_of_le_length (by rw [List.length_append]; omega), List.drop_of_length_le (by rw [List.length_append]; omega),
    List.nil_append]

theorem exportSignature_of (p : PkgFile lib) (r : RpmSt η) (hr : r.signature = p.sig) :
    exportSignature lib r = .ok (headerMagic ++ p.sigBlob ++ List.replicate p.pad 0) := by
  unfold exportSignature
  rw [hr, p.sigOk.exp]
  simp only
  rw [headerMagic_length, (sigPadding_of p.aligned).1]
  rfl

theorem exportHeader_of (p : PkgFile lib) (r : RpmSt η) (hr : r.header = p.hdr) : exportHeader lib r = .ok p.header := by
  unfold exportHeader
  rw [hr, p.hdrOk.exp]
  rfl

theorem fetchLeadsig_of (p : PkgFile lib) (r : RpmSt η) (h1 : r.lead = p.lead) (hr : r.signature = p.sig) :
    fetchLeadsig lib r = .ok p.leadsig := by
  unfold fetchLeadsig
  rw [p.exportSignature_of r hr, Out.bind_ok, h1]
  simp [leadsig, List.append_assoc]

theorem sizeFull_of (p : PkgFile lib) (r : RpmSt η) (h1 : r.signature = p.sig) (h2 : r.header = p.hdr) :
    rpmSizeFull lib r = (p.leadsig.length + p.header.length + r.compSize) % 2^32 := by
  have hs : 8 + p.sigBlob.length < 2^32 := by have := p.sigOk.small; omega
  unfold rpmSizeFull
  rw [h1, h2, p.sigOk.size, p.hdrOk.size, Nat.mod_eq_of_lt hs, (sigPadding_of p.aligned).1, leadsig_length, header_length]
  congr 1
  omega

theorem seqStart_of (p : PkgFile lib) : seqStart lib p.intro true = .ok p.header := by
  unfold seqStart
  rw [if_pos rfl, p.exportHeader_of _ rfl]

theorem fullStart_of (p : PkgFile lib) : fullStart lib p.intro true = .ok (p.leadsig ++ p.header) := by
  unfold fullStart
  rw [if_pos rfl, p.exportSignature_of _ rfl, Out.bind_ok, p.exportHeader_of _ rfl, Out.bind_ok]
  simp [leadsig, intro, List.append_assoc]

end PkgFile

theorem unpackArchive_of {σ : Type} (U : Unpack σ) (w : Bool) (z b : Bytes) (c : Comp) (h8 : 8 ≤ z.length)
    (hc : StartsAs c z) (hU : ReadsWhole z b (U c z)) :
    unpackArchive U w z = .ok ⟨b, z.length, some c, if w then z else [], if w then [] else z⟩ := by
  obtain ⟨m, e, hd⟩ := detect_iff z h8
  have hm : detectComp m = c := by
    rcases hc with ⟨h1, h2⟩ | ⟨h1, h2⟩
    · exact (hd c h1).2 h2
    · rw [h1]
      by_cases hn : detectComp m = .none
      · exact hn
      · exact absurd ((hd _ hn).1 rfl) (h2 _ hn)
  obtain ⟨ev, s, u1, u2, u3, ⟨t, u4⟩, _⟩ := hU.gives
  unfold unpackArchive
  rw [if_neg (by omega), e, Out.bind_ok, hm, u1, Out.bind_ok]
  simp only
  rw [u4, Out.bind_ok]
  simp only
  rw [u2, u3]

end Drpm
