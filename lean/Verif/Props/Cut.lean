import Verif.CutLemmas
import Verif.Props.Encoding
import Verif.Props.Format
import Verif.Props.RpmMake

/-!
# C78: a delta cut short

What is at the output path when `drpm_make` is interrupted or fails while writing is a prefix of the delta.
-/

namespace Drpm

/-- A decoder reads its input in order: from less input it gets a prefix of what it gets from more. -/
def ReadsInOrder (dec : Decoder) : Prop := ∀ c z z', z' <+: z → dec c z' <+: dec c z

theorem be64At_prefix {z z' : Bytes} (hz : z' <+: z) (h8 : 8 ≤ z'.length) : be64At z' = be64At z := by
  obtain ⟨t, rfl⟩ := hz
  match z', h8 with
  | b0 :: b1 :: b2 :: b3 :: b4 :: b5 :: b6 :: b7 :: r, _ => rfl

/-- The method is that of the whole; the data are the first of the data. -/
theorem openStream_prefix {dec : Decoder} (hdec : ReadsInOrder dec) {z z' s : Bytes} {c : Comp}
    (h : openStream dec z = .ok (c, s)) (hz : z' <+: z) :
    openStream dec z' = .err .format ∨ ∃ s', openStream dec z' = .ok (c, s') ∧ s' <+: s ∧
      (s' = s → z' = z ∨ c ≠ .none ∧ dec c z' = dec c z) := by
  by_cases h8 : z'.length < 8
  · exact Or.inl (by unfold openStream; rw [if_pos h8])
  have hle := hz.length_le
  right
  unfold openStream at h ⊢
  rw [if_neg (by omega)] at h
  rw [if_neg h8, be64At_prefix hz (by omega)]
  rw [Out.bind_eq_ok] at h
  obtain ⟨m, h1, h⟩ := h
  rw [h1, Out.bind_ok]
  generalize detectComp m = c' at h ⊢
  cases c' <;> simp only [Out.ok.injEq, Prod.mk.injEq] at h ⊢ <;> obtain ⟨rfl, rfl⟩ := h
  case none => exact ⟨z', ⟨rfl, rfl⟩, hz, fun hn => Or.inl hn⟩
  all_goals
    exact ⟨_, ⟨rfl, rfl⟩, hdec _ _ _ hz, fun ha => Or.inr ⟨by decide, ha⟩⟩

/-- The compressed part of a delta, cut short. -/
theorem body_prefix {dec : Decoder} (hdec : ReadsInOrder dec) {z z' : Bytes} {g : Comp → Delta} {d : Delta}
    (h : (openStream dec z >>= fun x => rdRest (g x.1) x.2 >>= fun y => .ok y.1) = .ok d) (hz : z' <+: z) :
    (openStream dec z' >>= fun x => rdRest (g x.1) x.2 >>= fun y => .ok y.1) = .ok d ∨
    (openStream dec z' >>= fun x => rdRest (g x.1) x.2 >>= fun y => .ok y.1) = .err .format := by
  rw [Out.bind_eq_ok] at h
  obtain ⟨⟨c, s⟩, h1, h⟩ := h
  rw [Out.bind_eq_ok] at h
  obtain ⟨⟨d', r⟩, h2, h⟩ := h
  cases h
  rcases openStream_prefix hdec h1 hz with e | ⟨s', e, hs, _⟩
  · exact Or.inr (by rw [e, Out.bind_err])
  · rw [e, Out.bind_ok]
    simp only at h2 ⊢
    rcases (tight_rdRest (g c)).prefix h2 hs with ⟨_, k⟩ | ⟨_, r', _, _, k⟩
    · exact Or.inr (by rw [k, Out.bind_err])
    · exact Or.inl (by rw [k, Out.bind_ok])

/-- The compressed part of a delta that ends with the delta, cut short. -/
theorem body_strict {dec : Decoder} (hdec : ReadsInOrder dec) {z z' s : Bytes} {g : Comp → Delta} {d : Delta} {c : Comp}
    (h1 : openStream dec z = .ok (c, s)) (h2 : rdRest (g c) s = .ok (d, [])) (hz : z' <+: z) (hn : z' ≠ z) :
    (openStream dec z' >>= fun x => rdRest (g x.1) x.2 >>= fun y => .ok y.1) = .err .format ∨
      (c ≠ .none ∧ dec c z' = dec c z) := by
  rcases openStream_prefix hdec h1 hz with e | ⟨s', e, hs, hw⟩
  · exact Or.inl (by rw [e, Out.bind_err])
  · by_cases hss : s' = s
    · exact Or.inr ((hw hss).resolve_left hn)
    · left
      rw [e, Out.bind_ok]
      simp only
      rcases (tight_rdRest (g c)).prefix h2 hs with ⟨_, k⟩ | ⟨k, _⟩
      · rw [k, Out.bind_err]
      · exact absurd (hs.eq_of_length_le (by rw [List.length_nil] at k; omega)) hss

theorem lead_of_magic {file rest : Bytes} (h : fileBe32 file = .ok (0xEDABEEDB, rest)) : leadMagic <+: file := by
  obtain ⟨c, e, f, _⟩ := tight_fileBe32 file _ rest h
  match file, h with
  | [], h => cases h
  | [_], h => cases h
  | [_, _], h => cases h
  | [_, _, _], h => cases h
  | b0 :: b1 :: b2 :: b3 :: r, h =>
    have h1 : fileBe32 (b0 :: b1 :: b2 :: b3 :: r) = .ok (parseBe32 b0 b1 b2 b3, r) := by
      have h4 : min (min 4 (b0 :: b1 :: b2 :: b3 :: r).length) 0x7ffff000 = 4 := by
        simp only [List.length_cons]
        omega
      unfold fileBe32 sysRead
      rw [h4]
      rfl
    rw [h1] at h
    have h2 := (Prod.mk.inj (Out.ok.inj h)).1
    have h3 := C13_be32_unparse b0 b1 b2 b3
    rw [h2] at h3
    refine ⟨r, ?_⟩
    have : leadMagic = createBe32 0xEDABEEDB := by decide
    rw [this, h3]
    rfl

theorem cut_prefix (dec : Decoder) (hdec : ReadsInOrder dec) (rpmHead : Bytes → Out (Nat × Nat)) (file : Bytes) (Q : Nat → Prop)
    (hhead : leadMagic <+: file → ∀ k, (rpmHead (file.take k) = rpmHead file ∧ Q k) ∨ ∃ e, rpmHead (file.take k) = .err e)
    (d : Delta) (h : readDelta dec rpmHead file = .ok d) (k : Nat) :
    (readDelta dec rpmHead (file.take k) = .ok d ∧ (leadMagic <+: file → Q k)) ∨
      ∃ e, readDelta dec rpmHead (file.take k) = .err e := by
  have hk : file.take k <+: file := List.take_prefix k file
  unfold readDelta at h ⊢
  rw [Out.bind_eq_ok] at h
  obtain ⟨⟨magic, rest⟩, h1, h⟩ := h
  simp only at h
  rcases tight_fileBe32.prefix h1 hk with ⟨_, e⟩ | ⟨_, rest', hr, _, e⟩
  · exact Or.inr ⟨_, by rw [e, Out.bind_err]⟩
  rw [e, Out.bind_ok]
  simp only
  by_cases hm : magic = 0x6472706D
  · rw [if_pos hm] at h ⊢
    rw [Out.bind_eq_ok] at h
    obtain ⟨⟨d1, z⟩, h2, h⟩ := h
    simp only at h
    rcases (tight_rdRpmonlyHead _).prefix h2 hr with ⟨_, e⟩ | ⟨_, z', hz, _, e⟩
    · exact Or.inr ⟨_, by rw [e, Out.bind_err]⟩
    rw [e, Out.bind_ok]
    simp only
    rcases body_prefix (g := fun c => { d1 with comp := c.code }) hdec h hz with k | k
    · refine Or.inl ⟨k, fun ⟨t, ht⟩ => ?_⟩
      rw [← ht, show leadMagic = createBe32 0xEDABEEDB by decide, fileBe32_create _ (by omega)] at h1
      have := (Prod.mk.inj (Out.ok.inj h1)).1
      rw [hm] at this
      exact absurd this (by decide)
    · exact Or.inr ⟨_, k⟩
  · rw [if_neg hm] at h ⊢
    by_cases hm2 : magic = 0xEDABEEDB
    · rw [if_pos hm2] at h ⊢
      rw [Out.bind_eq_ok] at h
      obtain ⟨⟨size, comp⟩, h2, h⟩ := h
      rcases hhead (lead_of_magic (hm2 ▸ h1)) k with ⟨e, hq⟩ | ⟨err, e⟩
      · rw [e, h2, Out.bind_ok]
        simp only at h ⊢
        have hz : (file.take k).drop size <+: file.drop size := by
          rw [List.drop_take]
          exact List.take_prefix _ _
        rcases body_prefix (g := fun c => { Delta.zero with type := .standard, tgtComp := comp, comp := c.code }) hdec h hz with k | k
        · exact Or.inl ⟨k, fun _ => hq⟩
        · exact Or.inr ⟨_, k⟩
      · exact Or.inr ⟨err, by rw [e, Out.bind_err]⟩
    · rw [if_neg hm2] at h
      cases h

/-- C78. For every file that is accepted as a delta, whoever made it: cut it short anywhere, and it is refused, or nothing
    of it was needed that is missing and it is read as the same delta. `hhead` asks the same of rpmlib for
    the head of a package file (see `C78_head`). -/
theorem C78_prefix (dec : Decoder) (hdec : ReadsInOrder dec) (rpmHead : Bytes → Out (Nat × Nat)) (file : Bytes)
    (hhead : leadMagic <+: file → ∀ k, rpmHead (file.take k) = rpmHead file ∨ ∃ e, rpmHead (file.take k) = .err e)
    (d : Delta) (h : readDelta dec rpmHead file = .ok d) (k : Nat) :
    readDelta dec rpmHead (file.take k) = .ok d ∨ ∃ e, readDelta dec rpmHead (file.take k) = .err e := by
  rcases cut_prefix dec hdec rpmHead file (fun _ => True) (fun hl k => (hhead hl k).imp (⟨·, trivial⟩) id) d h k with ⟨h1, _⟩ | h1
  · exact Or.inl h1
  · exact Or.inr h1

/-- What `drpm_apply` asks rpmlib about a delta has the same answers for both files. -/
def SameHead {σ : Type} (env : ApplyEnv σ) (a b : Bytes) : Prop :=
  env.rpmHead a = env.rpmHead b ∧ env.tgtSource a = env.tgtSource b ∧ env.tgtHeader a = env.tgtHeader b

theorem planApply_same {σ : Type} (env : ApplyEnv σ) (a b : Bytes) (d : Delta) (ha : readDelta env.dec env.rpmHead a = .ok d)
    (hb : readDelta env.dec env.rpmHead b = .ok d)
    (h : d.type = .standard → env.tgtSource a = env.tgtSource b ∧ env.tgtHeader a = env.tgtHeader b) (src : OldSrc) (cleanup : Nat) :
    planApply env a src cleanup = planApply env b src cleanup := by
  have e1 : ∀ src, applyOld env a d src = applyOld env b d src := by
    intro src
    cases src with
    | rpm r => rfl
    | installed db disk =>
      unfold applyOld
      cases ht : d.type with
      | rpmonly => rfl
      | standard => simp only [(h ht).1]
  have e2 : applyHeader env a d = applyHeader env b d := by
    unfold applyHeader
    cases ht : d.type with
    | rpmonly => rfl
    | standard => simp only [(h ht).2]
  unfold planApply planBody planDiff applyWrite
  rw [ha, hb, Out.bind_ok, Out.bind_ok, e1, e2]

/-- C78 (applying): whatever the delta is applied to, with a delta that was cut short `drpm_apply` does the
    same as with all of it, or it ends with an error before anything is written. -/
theorem C78_apply {σ : Type} (env : ApplyEnv σ) (hdec : ReadsInOrder env.dec) (file : Bytes)
    (hhead : leadMagic <+: file → ∀ k, SameHead env (file.take k) file ∨ ∃ e, env.rpmHead (file.take k) = .err e)
    (d : Delta) (h : readDelta env.dec env.rpmHead file = .ok d) (k : Nat) (src : OldSrc) (cleanup : Nat) :
    applyTo env (.ok (file.take k)) src cleanup = applyTo env (.ok file) src cleanup ∨
      ∃ e, applyTo env (.ok (file.take k)) src cleanup = (.err e, .written []) := by
  rcases cut_prefix env.dec hdec env.rpmHead file
    (fun k => env.tgtSource (file.take k) = env.tgtSource file ∧ env.tgtHeader (file.take k) = env.tgtHeader file)
    (fun hl k => (hhead hl k).imp id id) d h k with ⟨h1, h2⟩ | ⟨e, h1⟩
  · left
    unfold applyTo
    simp only [Out.bind_ok]
    rw [planApply_same env (file.take k) file d h1 h (fun ht => h2 ⟨file.drop 4, by
      rw [← (C11_partial _ _ _ _ h).2.1 ht |>.trans (by rfl : _ = leadMagic), List.take_append_drop]⟩) src cleanup]
  · right
    refine ⟨e, ?_⟩
    unfold applyTo planApply
    simp only [Out.bind_ok, h1, Out.bind_err]

/-- C78 (the deltas of `drpm_make`): cut short anywhere, the file is refused. The exception is what the
    compression library appended after the last of the data (a checksum, say), of which it can do
    without a part. For standard deltas, `rpmW` and `rpmR` are as in `C07_roundtrip`; `hcut`: rpmlib does not
    find the header if a part of it is missing, and does not look behind it (see `C78_head`). -/
theorem C78_made (d : Delta) (ptrs : List Bytes) (hd : d.Made ptrs) (c : Comp) (hc : d.comp = c.code)
    (compress : Bytes → Out Bytes) (dec : Decoder) (hl : Lossless c compress dec) (hdec : ReadsInOrder dec)
    (rpmW : Bytes → Bytes) (rpmR : Bytes → Out (Nat × Nat)) (headComp : Nat)
    (hrpm : ∀ z, rpmR (rpmW z ++ z) = .ok ((rpmW z).length, headComp) ∧
      ∃ t, rpmW z = [0xED, 0xAB, 0xEE, 0xDB] ++ t)
    (hcut : ∀ z k, if k < (rpmW z).length then ∃ e, rpmR ((rpmW z ++ z).take k) = .err e
      else rpmR ((rpmW z ++ z).take k) = rpmR (rpmW z ++ z)) :
    ∃ head z, writeDelta compress (fun z => .ok (rpmW z)) d = .ok (head ++ z) ∧ ∀ k, k < (head ++ z).length →
      (∃ e, readDelta dec rpmR ((head ++ z).take k) = .err e) ∨
      (c ≠ .none ∧ head.length ≤ k ∧ dec c (z.take (k - head.length)) = dec c z) := by
  have key : ∀ d0 : Delta, d0.type = d.type → (d0.tgtHeaderLen = 0 ∧ d0.offadj = []) →
      (d.type = .rpmonly → d0.tgtNevr = d.tgtNevr) →
      (d0.addData = if d.type = .rpmonly then d.addData else []) →
      ∃ s z d', writeStream d = .ok s ∧ compress s = .ok z ∧ openStream dec z = .ok (c, s) ∧
        rdRest d0 s = .ok (d', []) := by
    intro d0 h1 h2 h3 h4
    obtain ⟨s, d', e1, e2, e3, e4, e8, e5, e6, e7⟩ := rdRest_write d0 d ptrs hd h1 h2 h3 h4 []
    rw [List.append_nil] at e2
    by_cases hn : c = .none
    · subst hn
      exact ⟨s, s, d', e1, hl.plain rfl s, openStream_plain dec s e6 (plain_not_magic s _ e7), e2⟩
    · obtain ⟨z, z1, z2, z3, z4⟩ := hl.packed hn s
      exact ⟨s, z, d', e1, z1, by rw [openStream_packed dec z c hn z2 z3, z4], e2⟩
  cases hty : d.type with
  | rpmonly =>
    obtain ⟨s, z, d', e1, e2, e3, e4⟩ := key
      { Delta.zero with type := .rpmonly, tgtNevr := d.tgtNevr, addData := d.addData, comp := c.code }
      hty.symm ⟨rfl, rfl⟩ (fun _ => rfl) (by simp [hty])
    let head := [100, 114, 112, 109] ++ versionBytes d.version ++ writeCStr d.tgtNevr ++ writeBuf d.addData
    have hm : fileBe32 (head ++ z) = .ok (0x6472706D, versionBytes d.version ++ (writeCStr d.tgtNevr ++ (writeBuf d.addData ++ z))) := by
      show fileBe32 ([100, 114, 112, 109] ++ versionBytes d.version ++ writeCStr d.tgtNevr ++ writeBuf d.addData ++ z) = _
      simp only [List.append_assoc]
      rw [show ([100, 114, 112, 109] : Bytes) = createBe32 0x6472706D by decide, fileBe32_create _ (by omega)]
    have hlen : (head ++ z).length = 4 + (versionBytes d.version ++ (writeCStr d.tgtNevr ++ (writeBuf d.addData ++ z))).length := by
      simp only [head, List.length_append, List.length_cons, List.length_nil]
      omega
    refine ⟨head, z, ?_, fun k hk => ?_⟩
    · rw [writeDelta_total, e1, Out.bind_ok, e2, Out.bind_ok]
      unfold writeHead
      rw [hty]
    · have hp : (head ++ z).take k <+: head ++ z := List.take_prefix _ _
      have hkl : ((head ++ z).take k).length = k := by rw [List.length_take]; omega
      unfold readDelta
      rcases tight_fileBe32.prefix hm hp with ⟨_, e⟩ | ⟨_, rest', hr, l1, e⟩
      · exact Or.inl ⟨_, by rw [e, Out.bind_err]⟩
      rw [e, Out.bind_ok]
      simp only [if_true]
      rcases (tight_rdRpmonlyHead _).prefix (rdRpmonlyHead_write _ d ptrs hd hty z) hr with ⟨_, e⟩ | ⟨_, z', hz, l2, e⟩
      · exact Or.inl ⟨_, by rw [e, Out.bind_err]⟩
      rw [e, Out.bind_ok]
      simp only
      have hzl : z'.length + head.length = k := by
        have hlen2 : (head ++ z).length = head.length + z.length := List.length_append
        omega
      have hzk : z' = z.take (k - head.length) := by
        rw [List.prefix_iff_eq_take.mp hz, ← hzl, Nat.add_sub_cancel]
      have hne : z' ≠ z := by
        intro h
        rw [h] at hzl
        rw [List.length_append] at hk
        omega
      rcases body_strict (g := fun c' => { Delta.zero with type := .rpmonly, tgtNevr := d.tgtNevr, addData := d.addData, comp := c'.code }) hdec e3 e4 hz hne with k1 | ⟨k1, k2⟩
      · exact Or.inl ⟨_, k1⟩
      · exact Or.inr ⟨k1, by omega, by rw [← hzk]; exact k2⟩
  | standard =>
    obtain ⟨s, z, d', e1, e2, e3, e4⟩ := key
      { Delta.zero with type := .standard, tgtComp := headComp, comp := c.code }
      hty.symm ⟨rfl, rfl⟩ (by simp [hty]) (by simp [hty, Delta.zero])
    obtain ⟨h1, t, h2⟩ := hrpm z
    refine ⟨rpmW z, z, ?_, fun k hk => ?_⟩
    · rw [writeDelta_total, e1, Out.bind_ok, e2, Out.bind_ok]
      unfold writeHead
      rw [hty]
    · have hp : (rpmW z ++ z).take k <+: rpmW z ++ z := List.take_prefix _ _
      have hm : fileBe32 (rpmW z ++ z) = .ok (0xEDABEEDB, t ++ z) := by
        rw [h2, List.append_assoc, show ([0xED, 0xAB, 0xEE, 0xDB] : Bytes) = createBe32 0xEDABEEDB by decide,
          fileBe32_create _ (by omega)]
      unfold readDelta
      rcases tight_fileBe32.prefix hm hp with ⟨_, e⟩ | ⟨_, rest', hr, l1, e⟩
      · exact Or.inl ⟨_, by rw [e, Out.bind_err]⟩
      rw [e, Out.bind_ok]
      simp only
      rw [if_neg (by decide), if_pos trivial]
      have hcut := hcut z k
      by_cases hk2 : k < (rpmW z).length
      · rw [if_pos hk2] at hcut
        obtain ⟨e, he⟩ := hcut
        exact Or.inl ⟨e, by rw [he, Out.bind_err]⟩
      · rw [if_neg hk2] at hcut
        rw [hcut, h1, Out.bind_ok]
        have hdrop : ((rpmW z ++ z).take k).drop (rpmW z).length = z.take (k - (rpmW z).length) := by
          rw [List.drop_take, List.drop_left]
        simp only
        rw [hdrop]
        have hne : z.take (k - (rpmW z).length) ≠ z := by
          intro h
          have := congrArg List.length h
          rw [List.length_take] at this
          rw [List.length_append] at hk
          omega
        rcases body_strict (g := fun c' => { Delta.zero with type := .standard, tgtComp := headComp, comp := c'.code }) hdec e3 e4
          (List.take_prefix _ _) hne with k1 | ⟨k1, k2⟩
        · exact Or.inl ⟨_, k1⟩
        · exact Or.inr ⟨k1, by omega, k2⟩

/-- rpmlib reads a header only if all of it is there. -/
def WholeHeaders {η : Type} (lib : Rpmlib η) : Prop :=
  ∀ h b, OnDisk lib h b → ∀ c x, headerMagic ++ b = c ++ x → x ≠ [] → lib.read c = none

theorem drop_strict {a c b x : Bytes} {k n : Nat} (hn : a.length = n) (hc : 0 < c.length) (hk : k < n + c.length) (hx : b = c ++ x) :
    ∃ c1 x1, c = c1 ++ x1 ∧ x1 ≠ [] ∧ ((a ++ b).take k).drop n = c1 := by
  refine ⟨c.take (k - n), c.drop (k - n), (List.take_append_drop _ _).symm, ?_, ?_⟩
  · intro h
    have := congrArg List.length h
    rw [List.length_drop, List.length_nil] at this
    omega
  · rw [List.drop_take, hx, ← hn, List.drop_left, List.take_append_of_le_length (by omega)]

/-- C78 (the head of a standard delta is a package file, see `C67_delta`): what is read of it. Cut within lead,
    signature and header, it is refused; cut behind, the same is read as of the whole file. -/
theorem C78_head {η σ : Type} (lib : Rpmlib η) (hlib : WholeHeaders lib) (U : Unpack σ) (p : PkgFile lib) (k : Nat) :
    if k < (p.leadsig ++ p.header).length then rpmRead lib (fun b => b) U .dontRead false false (p.file.take k) = .err .format
    else rpmRead lib (fun b => b) U .dontRead false false (p.file.take k) = rpmRead lib (fun b => b) U .dontRead false false p.file := by
  by_cases hk : k < (p.leadsig ++ p.header).length
  · rw [if_pos hk]
    refine C63_refused lib (fun b => b) U .dontRead false false (p.file.take k) ?_
    by_cases h1 : (p.file.take k).length < 96
    · exact Or.inl h1
    refine Or.inr (Or.inr ?_)
    have hl1 := p.isLead.1
    have hll := p.leadsig_length
    have hlh := p.header_length
    rw [List.length_append] at hk
    by_cases h2 : k < 96 + (headerMagic ++ p.sigBlob).length
    · obtain ⟨c1, x1, e1, e2, e3⟩ := drop_strict (a := p.lead) (c := headerMagic ++ p.sigBlob)
        (x := List.replicate p.pad 0 ++ p.header ++ p.payload)
        (b := headerMagic ++ p.sigBlob ++ (List.replicate p.pad 0 ++ p.header ++ p.payload)) hl1 (by rw [List.length_append]; exact Nat.add_pos_left (by decide) _) h2 rfl
      refine Or.inl ?_
      have ef : p.file = p.lead ++ (headerMagic ++ p.sigBlob ++ (List.replicate p.pad 0 ++ p.header ++ p.payload)) := by
        simp [PkgFile.file, PkgFile.leadsig, List.append_assoc]
      rw [ef, e3]
      exact hlib _ _ p.sigOk c1 x1 e1 e2
    · refine Or.inr ⟨p.sig, 8 + p.sigBlob.length, ?_, fun pad hp1 hp2 => ?_⟩
      · have ef : p.file = p.lead ++ (headerMagic ++ p.sigBlob ++ (List.replicate p.pad 0 ++ p.header ++ p.payload)) := by
          simp [PkgFile.file, PkgFile.leadsig, List.append_assoc]
        have : (p.file.take k).drop 96 = headerMagic ++ p.sigBlob ++
            (List.replicate p.pad 0 ++ p.header ++ p.payload).take (k - 96 - (headerMagic ++ p.sigBlob).length) := by
          rw [List.drop_take, ef, ← hl1, List.drop_left, List.take_append, List.take_of_length_le (by omega)]
        rw [this]
        exact p.sigOk.read _
      · have hpad : pad = p.pad := by
          have := p.aligned
          omega
        subst hpad
        have hn : p.leadsig.length = 96 + (8 + p.sigBlob.length) + p.pad := by omega
        obtain ⟨c1, x1, e1, e2, e3⟩ := drop_strict (a := p.leadsig) (c := p.header) (x := p.payload) (b := p.header ++ p.payload)
          hn (k := k) (by omega) (by omega) rfl
        have ef : p.file = p.leadsig ++ (p.header ++ p.payload) := by simp [PkgFile.file, List.append_assoc]
        rw [ef, e3]
        exact hlib _ _ p.hdrOk c1 x1 e1 e2
  · rw [if_neg hk]
    let q : PkgFile lib := { p with payload := p.payload.take (k - (p.leadsig ++ p.header).length) }
    have hq : p.file.take k = q.file := by
      show (p.leadsig ++ p.header ++ p.payload).take k = p.leadsig ++ p.header ++ _
      rw [List.take_append, List.take_of_length_le (by omega)]
    rw [hq, rpmRead_of q (fun b => b) U .dontRead false false _ rfl, rpmRead_of p (fun b => b) U .dontRead false false _ rfl]
    rfl

theorem sameHead_file {η σ τ : Type} (w : World η σ τ) (hw : WholeHeaders w.lib) (p : PkgFile w.lib) (k : Nat) :
    if k < (p.leadsig ++ p.header).length then ∃ e, w.applyEnv.rpmHead (p.file.take k) = .err e
    else SameHead w.applyEnv (p.file.take k) p.file := by
  have h := C78_head w.lib hw w.U p k
  split at h
  · rw [if_pos (by assumption)]
    refine ⟨.format, ?_⟩
    show readdeltaStandard w.lib w.U _ = _
    unfold readdeltaStandard
    rw [h, Out.bind_err]
  · rw [if_neg (by assumption)]
    refine ⟨?_, ?_, ?_⟩
    · show readdeltaStandard w.lib w.U _ = readdeltaStandard w.lib w.U _
      unfold readdeltaStandard
      rw [h]
    · show deltaIsSource w.lib w.U _ = deltaIsSource w.lib w.U _
      unfold deltaIsSource
      rw [h]
    · show unmarkedHeader w.lib w.U _ = unmarkedHeader w.lib w.U _
      unfold unmarkedHeader
      rw [h]

/-- A header that was marked can be found on disk. -/
theorem markedHeader_onDisk {η : Type} {lib : Rpmlib η} {Ok : TagData → Prop} (hl : HeaderLaws lib Ok) {header marked : Bytes}
    (h : markedHeader lib header = .ok marked) : ∃ m b, marked = headerMagic ++ b ∧ OnDisk lib m b := by
  unfold markedHeader at h
  cases h1 : lib.imp (header.drop 8) with
  | none => rw [h1] at h; cases h
  | some g =>
    rw [h1] at h
    simp only [Out.bind_eq_ok] at h
    obtain ⟨m, h2, h3⟩ := h
    unfold patchFormat at h2
    rw [Out.bind_eq_ok] at h2
    obtain ⟨g1, _, h2⟩ := h2
    split at h2
    · cases h2
    split at h2
    · cases h2
    split at h2
    · cases h2
    rename_i g2 _ g3 _ g4 hr
    cases h2
    obtain ⟨b, b1, _⟩ := hl.disk _ 63 _ (Or.inr rfl) hr
    unfold exportHeader at h3
    simp only [b1.exp, Out.ok.injEq] at h3
    exact ⟨m, b, h3.symm, b1⟩

/-- A standard delta is a package file. -/
theorem makeFiles_shape {η σ τ : Type} {w : World η σ τ} {Ok : TagData → Prop} (hl : HeaderLaws w.lib Ok) (h16 : ∀ b, (w.H b).length = 16)
    {o : Opts Bytes} {old new delta : Bytes} (h : makeFiles w o old new = .ok delta) :
    [100, 114, 112, 109] <+: delta ∨ ∃ p : PkgFile w.lib, delta = p.file := by
  unfold makeFiles drpmMake at h
  rw [if_neg (by simp)] at h
  split at h
  · cases h
  simp only [makeAny, Out.bind_eq_ok] at h
  obtain ⟨⟨d, header, level⟩, ⟨r, _, n, h2, h3⟩, h⟩ := h
  unfold makePair at h3
  simp only [Out.bind_eq_ok] at h3
  obtain ⟨_, _, lv, _, src, _, tgt, _, i, h4, off, _, df, _, add, _, h3⟩ := h3
  cases h3
  unfold writeDelta at h
  simp only [Out.bind_eq_ok] at h
  obtain ⟨s, _, z, _, hd, h6, h⟩ := h
  unfold standardPart at h6
  unfold writeHead at h
  unfold diffInputs at h4
  by_cases ho : o.rpmOnly = true
  · left
    simp only [fillDelta, ho, if_true] at h
    cases h
    simp only [List.append_assoc]
    exact List.prefix_append _ _
  · right
    simp only [fillDelta, ho] at h h6
    rw [if_neg ho] at h4
    simp only [Out.bind_eq_ok] at h4
    obtain ⟨_, _, _, _, c, _, marked, h5, h4⟩ := h4
    cases h4
    obtain ⟨m, b, rfl, hb⟩ := markedHeader_onDisk hl (show markedHeader w.lib n.header = .ok marked from h5)
    have himp : w.lib.imp ((headerMagic ++ b).drop 8) = some m := by
      have := hb.imp []
      rw [List.append_nil] at this
      exact this
    have hlead : (new.take 96).length = 96 ∧ leadMagic <+: new.take 96 := by
      unfold rpmOf at h2
      rw [Out.bind_eq_ok] at h2
      obtain ⟨x, h2, _⟩ := h2
      unfold readIntro at h2
      by_cases h1 : new.length < 96
      · rw [if_pos h1] at h2; cases h2
      rw [if_neg h1] at h2
      by_cases h3 : new.take 4 = leadMagic
      · refine ⟨by rw [List.length_take]; omega, ?_⟩
        rw [← h3]
        exact List.take_prefix_take_left (by omega)
      · rw [if_pos h3] at h2; cases h2
    obtain ⟨p, p1, p2, p3, p4, _⟩ := C67_delta w.lib Ok hl w.H h16 ⟨new.take 96, w.lib.new, m, [], 0, 0⟩ b hlead hb z
    refine ⟨p, ?_⟩
    have : (w.makeEnv (new.take 96)).rpmW (headerMagic ++ b) z = .ok (p.leadsig ++ p.header) := by
      show deltaHead w.lib w.H (new.take 96) (headerMagic ++ b) z = _
      unfold deltaHead
      rw [himp]
      simp only
      rw [p1]
    have h6 : (w.makeEnv (new.take 96)).rpmW (headerMagic ++ b) z = .ok hd := h6
    rw [this] at h6
    cases h6
    cases h
    rw [← p4]
    rfl

/-- C78 for the files of a pair of packages: the delta that `drpm_make` made, cut short, and applied to anything.
    Nothing is written, or the same as with the whole delta. -/
theorem C78_files {η σ τ : Type} (w : World η σ τ) (Ok : TagData → Prop) (hl : HeaderLaws w.lib Ok) (hw : WholeHeaders w.lib)
    (h16 : ∀ b, (w.H b).length = 16) (hdec : ReadsInOrder w.dec) (o : Opts Bytes) (old new delta : Bytes)
    (h : makeFiles w o old new = .ok delta) (d : Delta) (hd : readDelta w.dec w.applyEnv.rpmHead delta = .ok d)
    (k : Nat) (src : OldSrc) (cleanup : Nat) :
    applyTo w.applyEnv (.ok (delta.take k)) src cleanup = applyTo w.applyEnv (.ok delta) src cleanup ∨
      ∃ e, applyTo w.applyEnv (.ok (delta.take k)) src cleanup = (.err e, .written []) := by
  refine C78_apply w.applyEnv hdec delta (fun hlead k => ?_) d hd k src cleanup
  rcases makeFiles_shape hl h16 h with hp | ⟨p, rfl⟩
  · obtain ⟨t, rfl⟩ := hp
    obtain ⟨u, hu⟩ := hlead
    simp [leadMagic] at hu
  · have := sameHead_file w hw p k
    split at this
    · exact Or.inr this
    · exact Or.inl this

/-! ## Examples -/

namespace Toy

theorem unblob_short (h : Hdr) (hf : fits h = true) (c x : Bytes) (e : blob h = c ++ x) (hx : x ≠ []) : unblob c = none := by
  have hf' := (fits_iff h).1 hf
  have hl := blob_length h
  have e1 : blob h = createBe32 h.tags.length ++ (createBe32 (data h).length ++ (index h ++ data h)) := by
    simp [blob, List.append_assoc]
  have hxl : 0 < x.length := List.length_pos_iff.mpr hx
  have hcl : (blob h).length = c.length + x.length := by rw [e, List.length_append]
  by_cases h8 : c.length < 8
  · match c, h8 with
    | [], _ => rfl
    | [_], _ => rfl
    | [_, _], _ => rfl
    | [_, _, _], _ => rfl
    | [_, _, _, _], _ => rfl
    | [_, _, _, _, _], _ => rfl
    | [_, _, _, _, _, _], _ => rfl
    | [_, _, _, _, _, _, _], _ => rfl
    | _ :: _ :: _ :: _ :: _ :: _ :: _ :: _ :: r, h8 => simp only [List.length_cons] at h8; omega
  · have hc : c = createBe32 h.tags.length ++ (createBe32 (data h).length ++ c.drop 8) := by
      have h1 : c.take 8 = createBe32 h.tags.length ++ createBe32 (data h).length := by
        have := congrArg (List.take 8) (e.symm.trans e1)
        rw [List.take_append_of_le_length (by omega), ← List.append_assoc,
          List.take_append_of_le_length (by simp [createBe32_length])] at this
        exact this
      have h2 := List.take_append_drop 8 c
      rw [h1, List.append_assoc] at h2
      exact h2.symm
    rw [hc]
    unfold unblob
    rw [num_create _ (by omega)]
    simp only
    rw [num_create _ (by omega)]
    simp only
    rw [if_pos (by rw [List.length_drop]; omega)]

theorem whole : WholeHeaders lib := by
  intro h b hb c x e hx
  have hexp := hb.exp
  simp only [lib] at hexp ⊢
  split at hexp
  · rename_i hf
    cases hexp
    split
    · rename_i h8
      have hc : c = headerMagic ++ c.drop 8 := by
        have := List.take_append_drop 8 c
        rw [h8] at this
        exact this.symm
      rw [hc, List.append_assoc] at e
      rw [unblob_short h hf (c.drop 8) x (List.append_cancel_left e) hx]
      rfl
    · rfl
  · cases hexp

theorem inOrder : ReadsInOrder world.dec := by
  intro c z z' hz
  obtain ⟨t, rfl⟩ := hz
  show z'.drop 8 <+: (z' ++ t).drop 8
  rw [List.drop_append]
  exact List.prefix_append _ _

end Toy

open Toy in
/-- Non-vacuity of C78_files: the standard delta between two packages is made, applied, read; every cut is covered. -/
example (addblk : Bool) : ∃ delta, makeFiles world (demoOpts false 3 addblk) oldFile.file newFile.file = .ok delta ∧
    ∀ k cleanup, applyFiles world oldFile.file (delta.take k) cleanup = (.ok (), .written newFile.file) ∨
      ∃ e, applyFiles world oldFile.file (delta.take k) cleanup = (.err e, .written []) := by
  obtain ⟨delta, h1, h2⟩ := C68_demo_standard addblk
  refine ⟨delta, h1, fun k cleanup => ?_⟩
  have h3 := h2 cleanup
  have hd : ∃ d, readDelta world.dec world.applyEnv.rpmHead delta = .ok d := by
    cases hr : readDelta world.dec world.applyEnv.rpmHead delta with
    | ok d => exact ⟨d, rfl⟩
    | err e =>
      have h4 : applyFiles world oldFile.file delta cleanup = (.err e, .written []) := by
        unfold applyFiles drpmApply applyTo planApply
        simp only [Bool.true_eq_false, if_false, Out.bind_ok]
        have : readDelta world.applyEnv.dec world.applyEnv.rpmHead delta = .err e := hr
        rw [this]
        rfl
      rw [h4] at h3
      cases h3
    | ub =>
      have h4 : applyFiles world oldFile.file delta cleanup = (.ub, .partly) := by
        unfold applyFiles drpmApply applyTo planApply
        simp only [Bool.true_eq_false, if_false, Out.bind_ok]
        have : readDelta world.applyEnv.dec world.applyEnv.rpmHead delta = .ub := hr
        rw [this]
        rfl
      rw [h4] at h3
      cases h3
    | loop =>
      have h4 : applyFiles world oldFile.file delta cleanup = (.loop, .partly) := by
        unfold applyFiles drpmApply applyTo planApply
        simp only [Bool.true_eq_false, if_false, Out.bind_ok]
        have : readDelta world.applyEnv.dec world.applyEnv.rpmHead delta = .loop := hr
        rw [this]
        rfl
      rw [h4] at h3
      cases h3
  obtain ⟨d, hd⟩ := hd
  rw [← h3]
  exact C78_files world Ok laws whole md5_16 inOrder _ _ _ delta h1 d hd k _ cleanup

/-- Non-vacuity of C78_made: the delta of C07, with a codec that puts eight bytes before the data. -/
example : ∃ file, writeDelta (fun s => .ok (demoPack s)) (fun _ => .ok [0xED, 0xAB, 0xEE, 0xDB]) sampleDelta = .ok file ∧
    100 < file.length ∧ ∀ k, k + 8 < file.length →
      ∃ e, readDelta (fun _ z => z.drop 8) (fun b => if b.length < 4 then .err .format else .ok (4, 0)) (file.take k) = .err e := by
  have hdec : ReadsInOrder (fun _ z => z.drop 8) := Toy.inOrder
  have hl : Lossless .gzip (fun s => .ok (demoPack s)) (fun _ z => z.drop 8) :=
    ⟨nofun, fun _ s => ⟨demoPack s, rfl, by simp [demoPack], ⟨_, rfl⟩, rfl⟩⟩
  obtain ⟨head, z, h1, h2⟩ := C78_made sampleDelta _ sampleDelta_made .gzip rfl _ _ hl hdec (fun _ => [0xED, 0xAB, 0xEE, 0xDB])
    (fun b => if b.length < 4 then .err .format else .ok (4, 0)) 0
    (fun z => ⟨by simp, [], rfl⟩) (fun z k => by
      show if k < 4 then _ else _
      by_cases hk : k < 4
      · rw [if_pos hk]
        refine ⟨.format, ?_⟩
        rw [if_pos (by rw [List.length_take]; omega)]
      · rw [if_neg hk, if_neg (by rw [List.length_take, List.length_append]; simp; omega), if_neg (by simp)])
  have h3 : Out.okAnd (writeDelta (fun s => .ok (demoPack s)) (fun _ => .ok [0xED, 0xAB, 0xEE, 0xDB]) sampleDelta)
      (fun f => decide (100 < f.length)) = true := by decide +kernel
  rw [h1] at h3
  refine ⟨head ++ z, h1, by simpa [Out.okAnd] using h3, fun k hk => ?_⟩
  rcases h2 k (by omega) with h | ⟨_, h4, h5⟩
  · exact h
  · have := congrArg List.length h5
    rw [List.length_append] at hk
    simp only [List.length_drop, List.length_take] at this
    omega

end Drpm
