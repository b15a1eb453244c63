import Verif.SeqSpec
import Verif.UtilsLemmas
import Verif.Props.Encoding

/-!
# The bytes that stand for files determine the files
-/

namespace Drpm

theorem nul_split : ∀ {a b u v : Bytes}, 0 ∉ a → 0 ∉ b → a ++ 0 :: u = b ++ 0 :: v → a = b ∧ u = v
  | [], [], _, _, _, _, h => by simpa using h
  | [], y :: b, _, _, _, hb, h => by
    simp only [List.nil_append, List.cons_append, List.cons.injEq] at h
    exact absurd h.1 (fun e => hb (by rw [← e]; exact List.mem_cons_self))
  | x :: a, [], _, _, ha, _, h => by
    simp only [List.nil_append, List.cons_append, List.cons.injEq] at h
    exact absurd h.1.symm (fun e => ha (by rw [← e]; exact List.mem_cons_self))
  | x :: a, y :: b, u, v, ha, hb, h => by
    simp only [List.cons_append, List.cons.injEq] at h
    obtain ⟨h1, h2⟩ := nul_split (fun e => ha (List.mem_cons_of_mem _ e))
      (fun e => hb (List.mem_cons_of_mem _ e)) h.2
    exact ⟨by rw [h.1, h1], h2⟩

theorem createBe32_inj {a b : Nat} (ha : a < 2^32) (hb : b < 2^32) (h : createBe32 a = createBe32 b) :
    a = b := by
  have h1 := be32At_createBe32 a ha []
  have h2 := be32At_createBe32 b hb []
  rw [h] at h1
  rw [h1] at h2
  exact Out.ok.inj h2

theorem createBe32_mod (n : Nat) : createBe32 (n % 2^32) = createBe32 n := by
  simp only [createBe32, List.cons.injEq, and_true, ← UInt8.toNat_inj, UInt8.toNat_ofNat', Nat.shiftRight_eq_div_pow]
  omega

theorem relName_noNul {f : FileInfo} (h : 0 ∉ f.name) : 0 ∉ relName f := by
  unfold relName
  split
  · rename_i rest e
    intro hm
    exact h (by rw [e]; exact List.mem_cons_of_mem _ hm)
  · exact h

/-- The file has a digest, as long as the digests of the algorithm are. -/
def DigestOk (algo : Nat) (f : FileInfo) : Prop :=
  f.regular = true → 0 < f.size →
    (algo = 0 → ∃ d, parseHex f.md5 = some d ∧ d.length = 16) ∧
    (algo = 1 → ∃ d, parseHex f.md5 = some d ∧ d.length = 32)

theorem fileDigest_eq {algo : Nat} {f : FileInfo} {d : Bytes} (h : fileDigest algo f = .ok d) :
    (algo = 0 ∧ parseHex f.md5 = some d ∧ d.length = 16) ∨
    (algo = 1 ∧ parseHex f.md5 = some d ∧ d.length = 32) ∨ (¬(algo = 0 ∨ algo = 1) ∧ d = []) := by
  unfold fileDigest at h
  split at h
  · rename_i h0
    split at h
    · cases h
    split at h
    · rename_i x hx
      cases h
      exact Or.inl ⟨h0, (C14_md5 _ _).mp hx⟩
    · cases h
  · rename_i h0
    split at h
    · rename_i h1
      split at h
      · cases h
      split at h
      · rename_i x hx
        cases h
        exact Or.inr (Or.inl ⟨h1, (C14_sha256 _ _).mp hx⟩)
      · cases h
    · rename_i h1
      cases h
      exact Or.inr (Or.inr ⟨fun e => e.elim h0 h1, rfl⟩)

theorem regular_eq (f : FileInfo) : f.regular = isReg f := id rfl
theorem link_eq (f : FileInfo) : f.link = isLnk f := id rfl
theorem block_eq (f : FileInfo) : f.block = isBlk f := id rfl
theorem char_eq (f : FileInfo) : f.char = isChr f := id rfl

theorem link_not_regular {f : FileInfo} (h : f.link = true) : f.regular = false := by
  simp only [FileInfo.link, FileInfo.regular, beq_iff_eq] at h ⊢
  rw [h]; rfl

/-- What is hashed for a file is the record of the file. -/
theorem seqMd5_record {algo : Nat} {check : Bytes → Bytes → Nat → Out Unit} {f : FileInfo} {b : Bytes}
    (h : seqMd5 algo check f = .ok b) :
    b = fileRecord algo f ∧ DigestOk algo f := by
  unfold seqMd5 at h
  rw [Out.bind_eq_ok] at h
  obtain ⟨c, h1, h2⟩ := h
  simp only [Out.ok.injEq] at h2
  subst h2
  have key : c = contentRecord algo f ∧ DigestOk algo f := by
    unfold seqBody at h1
    unfold contentRecord DigestOk
    simp only [regular_eq, link_eq]
    split at h1
    · rename_i hl
      cases h1
      refine ⟨by rw [if_pos hl], fun hr => ?_⟩
      rw [← regular_eq, link_not_regular hl] at hr
      cases hr
    · rename_i hl
      rw [if_neg hl]
      split at h1
      · rename_i hr
        simp only [Bool.and_eq_true, decide_eq_true_eq] at hr
        have hs : seqFilesize f = f.size := by unfold seqFilesize; rw [hr.1]; rfl
        rw [hs] at hr
        unfold seqDigest at h1
        rw [Out.bind_eq_ok] at h1
        obtain ⟨d, h3, h1⟩ := h1
        rw [Out.bind_eq_ok] at h1
        obtain ⟨_, _, h1⟩ := h1
        cases h1
        rcases fileDigest_eq h3 with ⟨e, p, l⟩ | ⟨e, p, l⟩ | ⟨e, rfl⟩
        · rw [if_pos ⟨hr.1, hr.2, Or.inl e⟩, p]
          exact ⟨rfl, fun _ _ => ⟨fun _ => ⟨_, rfl, l⟩, fun e' => absurd (e.symm.trans e') (by decide)⟩⟩
        · rw [if_pos ⟨hr.1, hr.2, Or.inr e⟩, p]
          exact ⟨rfl, fun _ _ => ⟨fun e' => absurd (e.symm.trans e') (by decide), fun _ => ⟨_, rfl, l⟩⟩⟩
        · rw [if_neg (fun h => e h.2.2)]
          exact ⟨rfl, fun _ _ => ⟨fun e' => absurd (Or.inl e') e, fun e' => absurd (Or.inr e') e⟩⟩
      · rename_i hr
        cases h1
        have hr' : ¬(isReg f = true ∧ 0 < f.size) := by
          rintro ⟨a, b⟩
          refine hr ?_
          have hs : seqFilesize f = f.size := by unfold seqFilesize; rw [a]; rfl
          simp only [Bool.and_eq_true, decide_eq_true_eq]
          exact ⟨a, by omega⟩
        rw [if_neg (fun h => hr' ⟨h.1, h.2.1⟩)]
        exact ⟨rfl, fun a b => absurd ⟨a, b⟩ hr'⟩
  refine ⟨?_, key.2⟩
  rw [key.1]
  have hs : createBe32 (seqFilesize f) =
      createBe32 (if isReg f then f.size else if isLnk f then f.linkto.length else 0) := by
    unfold seqFilesize
    split
    · rfl
    · split
      · exact createBe32_mod _
      · rfl
  unfold fileRecord
  simp only [regular_eq, link_eq, block_eq, char_eq]
  rw [hs]
  unfold seqRdev
  simp only [Bool.or_eq_true, List.append_assoc]

/-- The record of a file, followed by anything, determines the file and what follows. -/
theorem fileRecord_inj {algo : Nat} {f g : FileInfo} {x y : Bytes} (hf : f.Proper) (hg : g.Proper)
    (df : DigestOk algo f) (dg : DigestOk algo g) (h : fileRecord algo f ++ x = fileRecord algo g ++ y) :
    SameFile algo f g ∧ x = y := by
  unfold fileRecord at h
  simp only [List.append_assoc, List.cons_append, List.nil_append] at h
  obtain ⟨hp, h⟩ := nul_split (relName_noNul hf.name) (relName_noNul hg.name) h
  obtain ⟨hm, h⟩ := List.append_inj h rfl
  have hm := createBe32_inj (by have := hf.mode; omega) (by have := hg.mode; omega) hm
  have er : f.regular = g.regular := by unfold FileInfo.regular; rw [hm]
  have el : f.link = g.link := by unfold FileInfo.link; rw [hm]
  have eb : f.block = g.block := by unfold FileInfo.block; rw [hm]
  have ec : f.char = g.char := by unfold FileInfo.char; rw [hm]
  obtain ⟨hs, h⟩ := List.append_inj h rfl
  have bound : ∀ k : FileInfo, k.Proper →
      (if k.regular = true then k.size else if k.link = true then k.linkto.length else 0) < 2^32 := by
    intro k hk
    have := hk.size
    have := hk.linkLen
    split
    · assumption
    · split
      · assumption
      · omega
  have hs := createBe32_inj (bound f hf) (bound g hg) hs
  obtain ⟨hr, h⟩ := List.append_inj h rfl
  have rbound : ∀ k : FileInfo, k.Proper →
      (if k.block = true ∨ k.char = true then k.rdev else 0) < 2^32 := by
    intro k hk
    have := hk.rdev
    split <;> omega
  have hr := createBe32_inj (rbound f hf) (rbound g hg) hr
  have hsize : f.regular = true → f.size = g.size := by
    intro h1
    rw [if_pos h1, if_pos (by rw [← er]; exact h1)] at hs
    exact hs
  have hdev : f.block = true ∨ f.char = true → f.rdev = g.rdev := by
    intro h1
    rw [if_pos h1, if_pos (by rw [← eb, ← ec]; exact h1)] at hr
    exact hr
  unfold contentRecord at h
  by_cases hl : f.link = true
  · rw [if_pos hl, if_pos (by rw [← el]; exact hl)] at h
    simp only [List.append_assoc, List.cons_append, List.nil_append] at h
    obtain ⟨h1, h2⟩ := nul_split hf.linkto hg.linkto h
    have hnr := link_not_regular hl
    exact ⟨⟨hp, hm, hsize, fun e => absurd (hnr.symm.trans e) (by decide), fun _ => h1, hdev⟩, h2⟩
  · have hl' : ¬g.link = true := by rw [← el]; exact hl
    rw [if_neg hl, if_neg hl'] at h
    by_cases hd : f.regular = true ∧ 0 < f.size ∧ (algo = 0 ∨ algo = 1)
    · have hgr : g.regular = true := by rw [← er]; exact hd.1
      have hgs : 0 < g.size := by rw [← hsize hd.1]; exact hd.2.1
      rw [if_pos hd, if_pos ⟨hgr, hgs, hd.2.2⟩] at h
      obtain ⟨f0, f1⟩ := df hd.1 hd.2.1
      obtain ⟨g0, g1⟩ := dg hgr hgs
      have fin : ∀ a b, parseHex f.md5 = some a → parseHex g.md5 = some b → a.length = b.length →
          SameFile algo f g ∧ x = y := by
        intro a b ha hb hab
        rw [ha, hb] at h
        obtain ⟨h1, h2⟩ := List.append_inj h hab
        simp only [Option.getD_some] at h1
        exact ⟨⟨hp, hm, hsize, fun _ _ _ => by rw [ha, hb, h1], fun e => absurd e hl, hdev⟩, h2⟩
      rcases hd.2.2 with e | e
      · obtain ⟨a, ha, la⟩ := f0 e
        obtain ⟨b, hb, lb⟩ := g0 e
        exact fin a b ha hb (by omega)
      · obtain ⟨a, ha, la⟩ := f1 e
        obtain ⟨b, hb, lb⟩ := g1 e
        exact fin a b ha hb (by omega)
    · have hd' : ¬(g.regular = true ∧ 0 < g.size ∧ (algo = 0 ∨ algo = 1)) := by
        rintro ⟨a, b, c⟩
        have a' : f.regular = true := by rw [er]; exact a
        exact hd ⟨a', by rw [hsize a']; exact b, c⟩
      rw [if_neg hd, if_neg hd'] at h
      exact ⟨⟨hp, hm, hsize, fun a b c => absurd ⟨a, b, c⟩ hd, fun e => absurd e hl, hdev⟩, by simpa using h⟩

/-- The files named by an order, all of them there and with proper digests. -/
def Named (algo : Nat) (files : List FileInfo) (order : List Nat) : Prop :=
  ∀ i ∈ order, ∃ f, files[i]? = some f ∧ DigestOk algo f

/-- What is hashed for a list of positions. -/
theorem seqLoop_records {files : List FileInfo} {algo : Nat} {check : Bytes → Bytes → Nat → Out Unit} :
    ∀ ps md out off md' out' off', seqLoop files algo check ps md out off = .ok (md', out', off') →
      md' = md ++ orderRecords algo files ps ∧ Named algo files ps := by
  intro ps
  induction ps with
  | nil =>
    intro md out off md' out' off' h
    simp only [seqLoop, Out.ok.injEq, Prod.mk.injEq] at h
    exact ⟨by simp [orderRecords, h.1], nofun⟩
  | cons j ps ih =>
    intro md out off md' out' off' h
    rw [seqLoop, Out.bind_eq_ok] at h
    obtain ⟨f, h1, h⟩ := h
    rw [Out.bind_eq_ok] at h
    obtain ⟨b, h2, h⟩ := h
    have hf := rd_eq_ok.mp h1
    obtain ⟨rfl, hd⟩ := seqMd5_record h2
    obtain ⟨i1, i2⟩ := ih _ _ _ _ _ _ h
    refine ⟨?_, ?_⟩
    · rw [i1]
      simp [orderRecords, hf]
    · intro i hi
      rcases List.mem_cons.mp hi with rfl | hi
      · exact ⟨f, hf, hd⟩
      · exact i2 i hi

/-- The records of the files named by an order determine these files. -/
theorem orderRecords_inj {algo : Nat} {fs gs : List FileInfo} (hf : ∀ f ∈ fs, f.Proper)
    (hg : ∀ f ∈ gs, f.Proper) :
    ∀ order, Named algo fs order → Named algo gs order →
      orderRecords algo fs order = orderRecords algo gs order →
      ∀ i ∈ order, ∃ f g, fs[i]? = some f ∧ gs[i]? = some g ∧ SameFile algo f g := by
  intro order
  induction order with
  | nil => intro _ _ _ i hi; cases hi
  | cons j ps ih =>
    intro n1 n2 h i hi
    obtain ⟨f, f1, f2⟩ := n1 j List.mem_cons_self
    obtain ⟨g, g1, g2⟩ := n2 j List.mem_cons_self
    simp only [orderRecords, List.map_cons, List.flatten_cons, f1, g1, Option.map_some,
      Option.getD_some] at h
    obtain ⟨h1, h2⟩ := fileRecord_inj (hf f (List.mem_of_getElem? f1)) (hg g (List.mem_of_getElem? g1)) f2 g2 h
    rcases List.mem_cons.mp hi with rfl | hi
    · exact ⟨f, g, f1, g1, h1⟩
    · exact ih (fun k hk => n1 k (List.mem_cons_of_mem _ hk))
        (fun k hk => n2 k (List.mem_cons_of_mem _ hk)) h2 i hi

theorem pushRun_val {fc : Nat} : ∀ {n pos : Nat} {ps : List Nat} {r : List Nat × Nat},
    pushRun fc n pos ps = .ok r → r = (ps ++ List.range' pos n, pos + n)
  | 0, pos, ps, r, h => by
    simp only [pushRun, Out.ok.injEq] at h
    rw [← h]
    simp
  | n + 1, pos, ps, r, h => by
    unfold pushRun at h
    split at h
    · cases h
    split at h
    · cases h
    rw [pushRun_val h]
    simp [List.range'_succ]
    omega

theorem decStep_count {a b nib : Nat} {s x y : DecSt} (h1 : decStep a s nib = .ok x)
    (h2 : decStep b s nib = .ok y) : x = y := by
  unfold decStep at h1 h2
  split at h1
  · rename_i hn
    rw [if_pos hn, h1] at h2
    exact Out.ok.inj h2
  · rename_i hn
    rw [if_neg hn] at h2
    rw [Out.bind_eq_ok] at h1 h2
    obtain ⟨c, e1, h1⟩ := h1
    obtain ⟨d, e2, h2⟩ := h2
    rw [e1] at e2
    cases e2
    dsimp only at h1 h2
    split at h1
    · rename_i hj
      rw [if_pos hj, h1] at h2
      exact Out.ok.inj h2
    · rename_i hj
      rw [if_neg hj] at h2
      split at h1
      · rename_i hz
        rw [if_pos hz, h1] at h2
        exact Out.ok.inj h2
      · rename_i hz
        rw [if_neg hz] at h2
        split at h1
        · rename_i ht
          rw [if_pos ht, h1] at h2
          exact Out.ok.inj h2
        · rename_i ht
          rw [if_neg ht] at h2
          rw [Out.bind_eq_ok] at h1 h2
          obtain ⟨p, f1, h1⟩ := h1
          obtain ⟨q, f2, h2⟩ := h2
          rw [pushRun_val f1] at h1
          rw [pushRun_val f2] at h2
          rw [h1] at h2
          exact Out.ok.inj h2

theorem decFold_count {a b : Nat} : ∀ {ns : List Nat} {s x y : DecSt},
    ns.foldlM (decStep a) s = .ok x → ns.foldlM (decStep b) s = .ok y → x = y
  | [], s, x, y, h1, h2 => by
    have e1 : s = x := Out.ok.inj h1
    have e2 : s = y := Out.ok.inj h2
    rw [← e1, e2]
  | n :: ns, s, x, y, h1, h2 => by
    rw [List.foldlM_cons, Out.bind_eq_ok] at h1 h2
    obtain ⟨c, e1, h1⟩ := h1
    obtain ⟨d, e2, h2⟩ := h2
    rw [decStep_count e2 e1] at h2
    exact decFold_count h1 h2

/-- The order that a sequence tells does not depend on the number of files, if it is accepted at all. -/
theorem decodeSeq_count {a b : Nat} {bs : Bytes} {x y : List Nat} (h1 : decodeSeq a bs = .ok x)
    (h2 : decodeSeq b bs = .ok y) : x = y := by
  unfold decodeSeq at h1 h2
  rw [Out.bind_eq_ok] at h1 h2
  obtain ⟨c, e1, h1⟩ := h1
  obtain ⟨d, e2, h2⟩ := h2
  rw [decFold_count e2 e1, h1] at h2
  exact Out.ok.inj h2

/-- What an accepted sequence says: its order names files of the list, and its first 16 bytes are the hash
of their records. -/
theorem expandSeq_records {H : Bytes → Bytes} {files : List FileInfo} {algo : Nat}
    {check : Bytes → Bytes → Nat → Out Unit} {seq : Bytes} {places : List CpioFile}
    (h : expandSeq H files algo check seq = .ok places) :
    16 ≤ seq.length ∧ ∃ order, decodeSeq files.length (seq.drop 16) = .ok order ∧ Named algo files order ∧
      seq.take 16 = H (orderRecords algo files order) := by
  unfold expandSeq at h
  split at h
  · cases h
  rename_i hl
  rw [Out.bind_eq_ok] at h
  obtain ⟨order, h1, h⟩ := h
  rw [Out.bind_eq_ok] at h
  obtain ⟨⟨md, out, off⟩, h2, h⟩ := h
  dsimp only at h
  split at h
  · cases h
  rename_i hH
  obtain ⟨e1, e2⟩ := seqLoop_records _ _ _ _ _ _ _ h2
  refine ⟨by omega, order, h1, e2, ?_⟩
  rw [List.nil_append] at e1
  rw [← e1]
  exact Classical.byContradiction hH

end Drpm
