import Verif.NewcSpec
import Verif.KeepLemmas
import Verif.SeqMetaLemmas
import Verif.MakeRuns
import Verif.CpioRead
/-!
# Archives in the format "newc": lemmas
-/

namespace Drpm

/-! ## Numbers -/

theorem digitOf_eq : ∀ c : UInt8, digitOf c = hexDigitVal c := by
  have : ∀ n : Fin 256, digitOf (UInt8.ofNat n.val) = hexDigitVal (UInt8.ofNat n.val) := by decide +kernel
  intro c
  have := this ⟨c.toNat, c.toNat_lt⟩
  simpa using this

theorem digitOf_lt : ∀ (c : UInt8) (d : Nat), digitOf c = some d → d < 16 := by
  have : ∀ n : Fin 256, ∀ d, digitOf (UInt8.ofNat n.val) = some d → d < 16 := by
    intro n d h
    have : ∀ n : Fin 256, (digitOf (UInt8.ofNat n.val)).getD 0 < 16 := by decide +kernel
    have := this n
    rw [h] at this
    exact this
  intro c d h
  exact this ⟨c.toNat, c.toNat_lt⟩ d (by simpa using h)

theorem Hex.parse {s : Bytes} {n : Nat} (h : Hex s n) : parseHexnum s = some n ∧ n < 16 ^ s.length := by
  induction h with
  | nil => exact ⟨rfl, by decide⟩
  | @digit s n d c _ hd ih =>
    rw [parseHexnum_snoc, ih.1, ← digitOf_eq, hd]
    have := digitOf_lt c d hd
    refine ⟨by simp only [Option.map_some, Option.some.injEq]; omega, ?_⟩
    rw [List.length_append, List.length_singleton, Nat.pow_succ]
    have := ih.2
    omega

theorem hexText_eq (n : Nat) : hexText n = hexPad 8 n := by
  have hd : ∀ d < 16, UInt8.ofNat (if d < 10 then 48 + d else 87 + d) = hexDigits.getD d 0 := by decide +kernel
  have e : ∀ k, n / 16^k % 16 < 16 := fun k => Nat.mod_lt _ (by decide)
  simp only [hexText, List.map_cons, List.map_nil, hd _ (e _), hexPad, List.nil_append, List.cons_append, List.cons.injEq, and_true,
    Nat.div_div_eq_div_mul]
  simp

theorem newcZeros_eq (n : Nat) : newcZeros n = zeros (cpioPadding n) := rfl

/-! ## Headers -/

theorem newcHeader_length {hd : Bytes} {nums : List Nat} (h : NewcHeader hd nums) : hd.length = 110 := by
  obtain ⟨h1, fs, h2, rfl, h3⟩ := h
  have key : ∀ l : List Bytes, (∀ x ∈ l, x.length = 8) → l.flatten.length = 8 * l.length := by
    intro l
    induction l with
    | nil => intro _; rfl
    | cons a l ih =>
      intro hx
      rw [List.flatten_cons, List.length_append, ih (fun x hm => hx x (by simp [hm])), hx a (by simp), List.length_cons]
      omega
  rw [List.length_append, key fs, h2]
  · rfl
  · intro x hx
    obtain ⟨i, hi⟩ := List.getElem?_of_mem hx
    have hlt := (List.getElem?_eq_some_iff.mp hi).1
    exact (h3 i x _ hi (List.getElem?_eq_getElem (by omega))).1

theorem newcHeader_field {hd : Bytes} {nums : List Nat} (h : NewcHeader hd nums) {i n : Nat} (hn : nums[i]? = some n) :
    hexField hd i = .ok n ∧ n < 2^32 := by
  have hl := newcHeader_length h
  obtain ⟨h1, fs, h2, h4, h3⟩ := h
  have hlt := (List.getElem?_eq_some_iff.mp hn).1
  have hf : fs[i]? = some (fs[i]'(by omega)) := List.getElem?_eq_getElem (by omega)
  obtain ⟨a, b⟩ := h3 i _ n hf hn
  unfold hexField
  rw [rdBlk_ok (by omega), Out.bind_ok]
  have e : slice hd (6 + 8 * i) 8 = fs[i]'(by omega) := by
    rw [← slice_flatten fs i _ ?_ hf, h4]
    · simp only [slice]
      rw [List.drop_append, List.drop_eq_nil_of_le (by simp [newcMagic]), List.nil_append]
      congr 2
      simp [newcMagic]
    · intro y hy
      obtain ⟨j, hj⟩ := List.getElem?_of_mem hy
      have hlt := (List.getElem?_eq_some_iff.mp hj).1
      exact (h3 j y _ hj (List.getElem?_eq_getElem (by omega))).1
  rw [e, b.parse.1]
  have := b.parse.2
  rw [a] at this
  exact ⟨rfl, this⟩

theorem newcHeader_read {hd : Bytes} {nums : List Nat} (h : NewcHeader hd nums) {size nsize : Nat} (hs : nums[6]? = some size)
    (hn : nums[11]? = some nsize) (hn2 : nsize < 2^16) :
    ∃ c, cpioHeaderRead hd = .ok c ∧ c.filesize = size ∧ c.namesize = nsize := by
  have hl := h.1
  have g : ∀ i, i < 13 → ∃ n, hexField hd i = .ok n := fun i hi =>
    ⟨_, (newcHeader_field h (List.getElem?_eq_getElem (by omega))).1⟩
  obtain ⟨v0, e0⟩ := g 0 (by decide)
  obtain ⟨v1, e1⟩ := g 1 (by decide)
  obtain ⟨v2, e2⟩ := g 2 (by decide)
  obtain ⟨v3, e3⟩ := g 3 (by decide)
  obtain ⟨v4, e4⟩ := g 4 (by decide)
  obtain ⟨v5, e5⟩ := g 5 (by decide)
  obtain ⟨v7, e7⟩ := g 7 (by decide)
  obtain ⟨v8, e8⟩ := g 8 (by decide)
  obtain ⟨v9, e9⟩ := g 9 (by decide)
  obtain ⟨v10, e10⟩ := g 10 (by decide)
  obtain ⟨e6, l6⟩ := newcHeader_field h hs
  obtain ⟨e11, l11⟩ := newcHeader_field h hn
  unfold cpioHeaderRead
  rw [if_neg (by
    obtain ⟨_, fs, _, rfl, _⟩ := h
    rw [List.take_append_of_le_length (by simp [newcMagic])]
    simp [newcMagic, cpioMagic])]
  rw [e0, Out.bind_ok, e1, Out.bind_ok, e2, Out.bind_ok, e3, Out.bind_ok, e4, Out.bind_ok, e5, Out.bind_ok, e6, Out.bind_ok, e7, Out.bind_ok,
    e8, Out.bind_ok, e9, Out.bind_ok, e10, Out.bind_ok, e11, Out.bind_ok]
  exact ⟨_, rfl, Nat.mod_eq_of_lt l6, Nat.mod_eq_of_lt hn2⟩

/-! ## Entries -/

theorem slice_mid (a b c : Bytes) {i n : Nat} (hi : i = a.length) (hn : n = b.length) : slice (a ++ b ++ c) i n = b := by
  subst hi hn
  simp only [slice, List.append_assoc]
  rw [List.drop_append, List.drop_eq_nil_of_le (Nat.le_refl _), List.nil_append, Nat.sub_self, List.drop_zero,
    List.take_append_of_le_length (Nat.le_refl _), List.take_of_length_le (Nat.le_refl _)]

theorem Fills.eq {nul : Bool} {s p : Bytes} (h : Fills nul s p) : p.length = cpioPadding s.length := by
  obtain ⟨h1, h2, _⟩ := h
  rw [List.length_append] at h2
  unfold cpioPadding padding
  omega

theorem pathOf_eq (name : Bytes) : pathOf name = stripDot name := by
  unfold stripDot
  match name with
  | [] => rfl
  | [a] =>
    rw [if_neg (by simp)]
    unfold pathOf
    split
    · rename_i h; simp at h
    · rfl
  | a :: b :: rest =>
    by_cases h : a = 46 ∧ b = 47
    · obtain ⟨rfl, rfl⟩ := h
      rfl
    · rw [if_neg (by simpa using h)]
      unfold pathOf
      split
      · rename_i h'
        simp only [List.cons.injEq] at h'
        exact absurd ⟨h'.1, h'.2.1⟩ h
      · rfl

theorem cstr_name {name : Bytes} (h : 0 ∉ name) : cstr name = name := by
  unfold cstr
  induction name with
  | nil => rfl
  | cons c rest ih =>
    rw [List.mem_cons, not_or] at h
    rw [List.takeWhile_cons, if_pos (by simp only [bne_iff_ne, ne_eq]; exact fun e => h.1 e.symm), ih h.2]

/-- Reading an entry finds its name, and where its data is. -/
theorem newcEntry_read {nul : Bool} {pre s rest name data : Bytes} (h : NewcEntry nul s name data) (hl : (pre ++ (s ++ rest)).length < 2^63)
    (hn : name.length + 1 < 2^16) :
    ∃ c p, readHead (pre ++ (s ++ rest)) pre.length = .ok (c, name, pre.length + 110 + (name.length + 1)) ∧ c.filesize = data.length ∧
      c.namesize = name.length + 1 ∧ p = pre.length + 110 + (name.length + 1) + cpioPadding (110 + (name.length + 1)) ∧
      slice (pre ++ (s ++ rest)) p data.length = data ∧ p + data.length + cpioPadding data.length = (pre ++ s).length ∧
      (nul = true → slice (pre ++ (s ++ rest)) (p + data.length) (cpioPadding data.length) = zeros (cpioPadding data.length)) := by
  obtain ⟨hd, nums, p, q, h1, h2, h3, h0, h4, h5, rfl⟩ := h
  obtain ⟨c, c1, c2, c3⟩ := newcHeader_read h1 h2 h3 hn
  have lhd := newcHeader_length h1
  have lp := h4.eq
  have lq := h5.eq
  simp only [List.length_append, List.length_singleton, lhd] at lp hl
  refine ⟨c, _, ?_, c2, c3, rfl, ?_, ?_, fun hz => ?_⟩
  · unfold readHead
    have r1 : archiveRead (pre ++ (hd ++ name ++ [0] ++ p ++ data ++ q ++ rest)) pre.length 110 = .ok (hd, pre.length + 110) := by
      rw [archiveRead_ok (by simp only [List.length_append, List.length_singleton, lhd]; omega)
        (by simp only [List.length_append, List.length_singleton, lhd]; omega)]
      congr 2
      have := slice_mid pre hd (name ++ [0] ++ p ++ data ++ q ++ rest) (i := pre.length) (n := 110) rfl lhd.symm
      simpa only [List.append_assoc] using this
    rw [r1, Out.bind_ok]
    simp only
    rw [c1, Out.bind_ok]
    have r2 : archiveRead (pre ++ (hd ++ name ++ [0] ++ p ++ data ++ q ++ rest)) (pre.length + 110) c.namesize =
        .ok (name ++ [0], pre.length + 110 + (name.length + 1)) := by
      rw [c3, archiveRead_ok (by simp only [List.length_append, List.length_singleton, lhd]; omega)
        (by simp only [List.length_append, List.length_singleton, lhd]; omega)]
      congr 2
      have := slice_mid (pre ++ hd) (name ++ [0]) (p ++ data ++ q ++ rest) (i := pre.length + 110) (n := name.length + 1)
        (by rw [List.length_append, lhd]) (by simp)
      simpa only [List.append_assoc] using this
    rw [r2, Out.bind_ok]
    simp only
    rw [if_neg (by omega), c3]
    have : (name ++ [0]).take (name.length + 1 - 1) = name := by simp
    rw [this, cstr_name h0]
  · have := slice_mid (pre ++ hd ++ name ++ [0] ++ p) data (q ++ rest)
      (i := pre.length + 110 + (name.length + 1) + cpioPadding (110 + (name.length + 1))) (n := data.length)
      (by simp only [List.length_append, List.length_singleton, lhd, lp, Nat.add_assoc]) rfl
    simpa only [List.append_assoc] using this
  · simp only [List.length_append, List.length_singleton, lhd, lp, lq, Nat.add_assoc]
  · have := slice_mid (pre ++ hd ++ name ++ [0] ++ p ++ data) q rest
      (i := pre.length + 110 + (name.length + 1) + cpioPadding (110 + (name.length + 1)) + data.length) (n := cpioPadding data.length)
      (by simp only [List.length_append, List.length_singleton, lhd, lp, Nat.add_assoc]) lq.symm
    simp only [List.append_assoc] at this ⊢
    rw [this, zeros]
    exact List.eq_replicate_iff.mpr ⟨lq, h5.2.2 hz⟩

/-- An entry as the program sees it, and as the archive has it. -/
structure Sees (nul : Bool) (archive : Bytes) (e : AEnt) (x : Bytes × Bytes) : Prop where
  name : e.name = pathOf x.1
  size : e.size = x.2.length
  data : slice archive e.data e.size = x.2
  padding : nul = true → slice archive (e.data + e.size) (cpioPadding e.size) = zeros (cpioPadding e.size)

/-- The entries that the program finds are those of the archive. -/
inductive SeesAll (nul : Bool) (archive : Bytes) : List AEnt → List (Bytes × Bytes) → Prop
  | nil : SeesAll nul archive [] []
  | cons {e : AEnt} {x : Bytes × Bytes} {es : List AEnt} {xs : List (Bytes × Bytes)} : Sees nul archive e x → SeesAll nul archive es xs →
      SeesAll nul archive (e :: es) (x :: xs)

theorem newc_entries {nul : Bool} {tail : Bytes} {ents : List (Bytes × Bytes)} (h : NewcArchive nul tail ents) :
    ∀ pre, (pre ++ tail).length < 2^63 → (∀ x ∈ ents, x.1.length + 1 < 2^16) →
      ∃ es, Entries (pre ++ tail) pre.length es ∧ SeesAll nul (pre ++ tail) es ents := by
  induction h with
  | @trailer s rest hs =>
    intro pre hl _
    obtain ⟨c, p, h1, _⟩ := newcEntry_read (rest := rest) hs hl (by decide)
    exact ⟨[], .trailer h1, .nil⟩
  | @entry s rest name data ents hs hne _ ih =>
    intro pre hl hn
    have hn1 : name.length + 1 < 2^16 := hn (name, data) (by simp)
    obtain ⟨c, p, h1, h2, h3, h4, h5, h6, h7⟩ := newcEntry_read (rest := rest) hs hl hn1
    have ea : pre ++ (s ++ rest) = (pre ++ s) ++ rest := (List.append_assoc ..).symm
    obtain ⟨es, e1, e2⟩ := ih (pre ++ s) (by rw [← ea]; exact hl) (fun x hx => hn x (by simp [hx]))
    rw [← ea] at e1 e2
    refine ⟨⟨stripDot name, c.filesize, pre.length, p⟩ :: es, .entry h1 hne ?_ ?_ ?_, .cons ⟨(pathOf_eq name).symm, h2, by simp only [h2]; exact h5, by simp only [h2]; exact h7⟩ e2⟩
    · rw [h3, h4]
    · simp only [AEnt.stop, h2, h6]
      rw [ea, List.length_append (as := pre ++ s)]
      omega
    · simp only [AEnt.stop, h2, h6]
      exact e1

/-! ## The files that are used -/

/-- The program's kept entries as used files. -/
def usedOf (archive : Bytes) (x : Nat × FileInfo × AEnt) : Used := ⟨x.1, x.2.1, x.2.2.name, slice archive x.2.2.data x.2.2.size⟩

theorem uses_kept (m : MakeIn) {nul : Bool} {es : List AEnt} {ents : List (Bytes × Bytes)} (h : SeesAll nul m.archive es ents) :
    Uses m.colors m.unpatched m.files ents ((kept m es).map (usedOf m.archive)) := by
  induction h with
  | nil => exact .done
  | @cons e x es xs hx _ ih =>
    obtain ⟨name, data⟩ := x
    obtain ⟨s1, s2, s3, _⟩ := hx
    simp only at s1 s2 s3
    rw [kept_cons]
    cases hk : keepFile m e.name e.size with
    | none =>
      refine .leave (fun i f h1 h2 => ?_) ih
      have := (keepFile_some m e.name e.size i f).mpr ⟨by rw [s1]; exact h1, by rw [s1, s2]; exact h2⟩
      rw [hk] at this
      cases this
    | some x =>
      obtain ⟨i, f⟩ := x
      have := (keepFile_some m e.name e.size i f).mp hk
      rw [s1, s2] at this
      have u := Uses.take this.1 this.2 ih
      simp only [List.map_cons]
      have : usedOf m.archive (i, f, e) = ⟨i, f, pathOf name, data⟩ := by
        unfold usedOf
        simp only [s1, s3]
      rw [this]
      exact u

/-! ## The archive that is made -/

theorem usedText_eq {m : MakeIn} {i : Nat} {f : FileInfo} {e : AEnt} (hf : f.Fits) (hk : keepFile m e.name e.size = some (i, f))
    (hs : (slice m.archive e.data e.size).length = e.size) (hz : f.regular = false → f.link = false → e.size = 0) :
    usedText (usedOf m.archive (i, f, e)) = alteredHeader f ++ alteredContent m.archive f e := by
  obtain ⟨g1, g2, g3⟩ := keepFile_spec hk
  have hname : e.name = relName f := g2
  have hrl := relName_le f
  have hnm := hf.name
  have hrd : f.rdev < 2^16 := hf.rdev
  have hsz : ∀ (data : Bytes), data = (if f.link then f.linkto else slice m.archive e.data e.size) →
      (entryHdr f ((relName f).length + 1)).filesize = data.length := by
    rintro _ rfl
    show (if isReg f = true then f.size else if isLnk f = true then f.linkto.length % 2^32 else 0) = _
    rw [link_eq]
    cases hl : isLnk f with
    | true =>
      rw [isLnk_not_reg hl]
      simp only [Bool.false_eq_true, if_false, if_true]
      exact Nat.mod_eq_of_lt (by have := hf.linkto; omega)
    | false =>
      cases hr : isReg f with
      | true =>
        simp only [Bool.false_eq_true, if_false, if_true]
        rw [hs]
        exact (g3 hr).symm
      | false =>
        simp only [Bool.false_eq_true, if_false]
        rw [hs, hz (by rw [regular_eq]; exact hr) (by rw [link_eq]; exact hl)]
  have hdev : [0, f.mode, 0, 0, 1, 0, (entryHdr f ((relName f).length + 1)).filesize, 0, 0,
      (if f.block ∨ f.char then f.rdev else 0) / 256, (if f.block ∨ f.char then f.rdev else 0) % 256, (relName f).length + 1 + 2, 0] =
      hdrFields (entryHdr f ((relName f).length + 1)) := by
    have e1 : (entryHdr f ((relName f).length + 1)).rdevmajor = (if f.block ∨ f.char then f.rdev else 0) / 256 := by
      show (if isBlk f || isChr f then devMajor f.rdev % 2^8 else 0) = _
      rw [block_eq, char_eq]
      by_cases h : isBlk f = true ∨ isChr f = true
      · rw [if_pos (by simpa using h), if_pos h, devMajor_16 _ hrd]
        omega
      · rw [if_neg (by simpa using h), if_neg h]
    have e2 : (entryHdr f ((relName f).length + 1)).rdevminor = (if f.block ∨ f.char then f.rdev else 0) % 256 := by
      show (if isBlk f || isChr f then devMinor f.rdev % 2^8 else 0) = _
      rw [block_eq, char_eq]
      by_cases h : isBlk f = true ∨ isChr f = true
      · rw [if_pos (by simpa using h), if_pos h, devMinor_16 _ hrd]
        omega
      · rw [if_neg (by simpa using h), if_neg h]
    unfold hdrFields
    rw [e1, e2, entryHdr_namesize hf]
    rfl
  have hmap : ∀ l : List Nat, l.map hexText = l.map (hexPad 8) := fun l => List.map_congr_left (fun n _ => hexText_eq n)
  unfold usedText newcText usedOf
  simp only
  rw [hmap, ← hsz _ rfl, hname]
  have en : ([46, 47] ++ relName f).length + 1 = (relName f).length + 1 + 2 := by simp
  have en2 : 110 + ([46, 47] ++ relName f).length + 1 = 110 + 2 + (relName f).length + 1 := by simp; omega
  rw [en, en2, hdev, hsz _ rfl]
  unfold alteredHeader alteredContent
  rw [cpioHeaderWrite_fields, link_eq, newcZeros_eq, newcZeros_eq]
  have em : newcMagic = cpioMagic := rfl
  rw [em]
  cases isLnk f with
  | true => simp only [if_true, List.append_assoc]
  | false => simp only [Bool.false_eq_true, if_false, hs, List.append_assoc]

theorem firstAt_unique {files : List FileInfo} {path : Bytes} {i j : Nat} {f g : FileInfo} (h : FirstAt files path i f)
    (k : FirstAt files path j g) : i = j ∧ f = g := by
  have : i = j := by
    rcases Nat.lt_trichotomy i j with hij | hij | hij
    · exact absurd h.2.1 (k.2.2 i f hij h.1)
    · exact hij
    · exact absurd k.2.1 (h.2.2 j g hij k.1)
  subst this
  have := h.1
  rw [k.1] at this
  cases this
  exact ⟨rfl, rfl⟩

theorem uses_unique {colors : Bool} {unpatched : Bytes → Bytes → Bool} {files : List FileInfo} {ents : List (Bytes × Bytes)} {u : List Used}
    (h : Uses colors unpatched files ents u) : ∀ {v}, Uses colors unpatched files ents v → u = v := by
  induction h with
  | done => intro v k; cases k; rfl
  | take h1 h2 _ ih =>
    intro v k
    cases k with
    | take k1 k2 k3 =>
      obtain ⟨rfl, rfl⟩ := firstAt_unique h1 k1
      rw [ih k3]
    | leave k1 k2 => exact absurd h2 (k1 _ _ h1)
  | leave h1 _ ih =>
    intro v k
    cases k with
    | take k1 k2 k3 => exact absurd k2 (h1 _ _ k1)
    | leave k1 k2 => exact ih k2

theorem seesAll_names {nul : Bool} {archive : Bytes} {es : List AEnt} {ents : List (Bytes × Bytes)} (h : SeesAll nul archive es ents) :
    es.map AEnt.name = ents.map (fun x => pathOf x.1) := by
  induction h with
  | nil => rfl
  | cons hx _ ih => rw [List.map_cons, List.map_cons, ih, hx.name]

theorem seesAll_mem {nul : Bool} {archive : Bytes} {es : List AEnt} {ents : List (Bytes × Bytes)} (h : SeesAll nul archive es ents) :
    ∀ e ∈ es, ∃ x ∈ ents, Sees nul archive e x := by
  induction h with
  | nil => nofun
  | cons hx _ ih =>
    intro e he
    rcases List.mem_cons.mp he with rfl | he
    · exact ⟨_, by simp, hx⟩
    · obtain ⟨x, a, b⟩ := ih e he
      exact ⟨x, by simp [a], b⟩

theorem kept_has {m : MakeIn} {es : List AEnt} {e : AEnt} (he : e ∈ es) {i : Nat} {f : FileInfo} (hk : keepFile m e.name e.size = some (i, f)) :
    (i, f, e) ∈ kept m es := by
  unfold kept
  rw [List.mem_filterMap]
  exact ⟨e, he, by rw [hk]; rfl⟩

theorem kept_from {m : MakeIn} {es : List AEnt} {x : Nat × FileInfo × AEnt} (h : x ∈ kept m es) :
    x.2.2 ∈ es ∧ keepFile m x.2.2.name x.2.2.size = some (x.1, x.2.1) := by
  unfold kept at h
  rw [List.mem_filterMap] at h
  obtain ⟨e, h1, h2⟩ := h
  rw [Option.map_eq_some_iff] at h2
  obtain ⟨⟨i, f⟩, h3, rfl⟩ := h2
  exact ⟨h1, h3⟩

/-- What a payload is to the program. -/
theorem payload_plain {nul : Bool} {m : MakeIn} {ents : List (Bytes × Bytes)} {used : List Used}
    (h : Payload nul m.colors m.unpatched m.algo m.files m.archive ents used) (hl : m.archive.length < 2^63) :
    ∃ es, Entries m.archive 0 es ∧ SeesAll nul m.archive es ents ∧ used = (kept m es).map (usedOf m.archive) ∧
      (es.map AEnt.name).Nodup ∧ (∀ x ∈ kept m es, DigestOk m.algo x.2.1) ∧
      (∀ x ∈ kept m es, (slice m.archive x.2.2.data x.2.2.size).length = x.2.2.size) ∧
      (∀ x ∈ kept m es, x.2.1.regular = false → x.2.1.link = false → x.2.2.size = 0) := by
  obtain ⟨es, e1, e2⟩ := newc_entries h.newc [] (by simpa using hl) h.names
  simp only [List.nil_append, List.length_nil] at e1 e2
  have hu := uses_unique h.uses (uses_kept m e2)
  have hmem : ∀ x ∈ kept m es, usedOf m.archive x ∈ used := by
    intro x hx
    rw [hu]
    exact List.mem_map_of_mem hx
  have hlen : ∀ x ∈ kept m es, (slice m.archive x.2.2.data x.2.2.size).length = x.2.2.size := by
    intro x hx
    obtain ⟨y, _, hy⟩ := seesAll_mem e2 _ (kept_from hx).1
    rw [hy.data, hy.size]
  refine ⟨es, e1, e2, hu, by rw [seesAll_names e2]; exact h.unique, fun x hx hr h0 => ⟨fun ha => ?_, fun ha => ?_⟩, hlen, fun x hx h1 h2 => ?_⟩
  · exact h.md5 ha _ (hmem x hx) hr h0
  · exact h.sha256 ha _ (hmem x hx) hr h0
  · have := h.nodata _ (hmem x hx) h1 h2
    have h3 := hlen x hx
    have : slice m.archive x.2.2.data x.2.2.size = [] := this
    rw [this] at h3
    exact h3.symm

theorem usedArchive_eq {m : MakeIn} {es : List AEnt} (hf : FilesFit m)
    (hs : ∀ x ∈ kept m es, (slice m.archive x.2.2.data x.2.2.size).length = x.2.2.size)
    (hz : ∀ x ∈ kept m es, x.2.1.regular = false → x.2.1.link = false → x.2.2.size = 0) :
    usedArchive ((kept m es).map (usedOf m.archive)) = altered m es := by
  unfold usedArchive altered alteredEntries
  have h1 : ∀ x ∈ kept m es, usedText (usedOf m.archive x) = (fun (x : Nat × FileInfo × AEnt) => alteredHeader x.2.1 ++ alteredContent m.archive x.2.1 x.2.2) x := by
    intro x hx
    obtain ⟨i, f, e⟩ := x
    have hk := (kept_from hx).2
    exact usedText_eq (keepFile_fits hf hk) hk (hs _ hx) (hz _ hx)
  have h2 : newcText 0 0 newcTrailerName [] = trailerBytes := by decide +kernel
  have h3 : (fun x : Nat × FileInfo × AEnt => match x with | (_, f, e) => alteredHeader f ++ alteredContent m.archive f e) =
      (fun x => alteredHeader x.2.1 ++ alteredContent m.archive x.2.1 x.2.2) := rfl
  rw [List.map_map, h2, h3, ← List.map_congr_left h1]
  rfl

theorem md5Files_records {algo : Nat} : ∀ (fs : List FileInfo) (md : Bytes), md5Files algo fs = .ok md → md = (fs.map (fileRecord algo)).flatten := by
  intro fs
  induction fs with
  | nil => intro md h; cases h; rfl
  | cons f fs ih =>
    intro md h
    rw [md5Files] at h
    obtain ⟨a, h1, h⟩ := Out.bind_eq_ok.mp h
    obtain ⟨b, h2, h⟩ := Out.bind_eq_ok.mp h
    cases h
    rw [ih b h2, (seqMd5_record h1).1]
    rfl

/-! ## What is made is an archive -/

theorem hexText_hex (n : Nat) (h : n < 2^32) : (hexText n).length = 8 ∧ Hex (hexText n) n := by
  have hd : ∀ d < 16, digitOf (UInt8.ofNat (if d < 10 then 48 + d else 87 + d)) = some d := by decide +kernel
  have key : ∀ k, ∃ s, s = ((List.range k).reverse.map (fun i => let d := n / 16^(i + (8 - k)) % 16; UInt8.ofNat (if d < 10 then 48 + d else 87 + d))) ∧
      (k ≤ 8 → Hex s (n / 16^(8 - k))) := by
    intro k
    refine ⟨_, rfl, ?_⟩
    induction k with
    | zero =>
      intro _
      have : n / 16 ^ (8 - 0) = 0 := Nat.div_eq_of_lt (by omega)
      rw [this]
      exact .nil
    | succ k ih =>
      intro hk
      have h1 := ih (by omega)
      have e : (List.range (k + 1)).reverse = (List.range k).reverse.map (· + 1) ++ [0] := by
        rw [List.range_succ_eq_map, List.reverse_cons, ← List.map_reverse]
      rw [e, List.map_append, List.map_map]
      have e2 : n / 16^(8 - (k + 1)) = 16 * (n / 16^(8 - k)) + n / 16^(8 - (k + 1)) % 16 := by
        have : 8 - k = (8 - (k + 1)) + 1 := by omega
        rw [this, Nat.pow_succ, ← Nat.div_div_eq_div_mul]
        omega
      rw [e2]
      refine .digit ?_ (hd _ (Nat.mod_lt _ (by decide)) |>.trans (by simp))
      have e3 : ((fun i => let d := n / 16^(i + (8 - (k + 1))) % 16; UInt8.ofNat (if d < 10 then 48 + d else 87 + d)) ∘ (· + 1)) =
          (fun i => let d := n / 16^(i + (8 - k)) % 16; UInt8.ofNat (if d < 10 then 48 + d else 87 + d)) := by
        funext i
        simp only [Function.comp]
        have : i + 1 + (8 - (k + 1)) = i + (8 - k) := by omega
        rw [this]
      rw [e3]
      exact h1
  refine ⟨rfl, ?_⟩
  obtain ⟨s, e, hh⟩ := key 8
  have := hh (by omega)
  have r : (List.range 8).reverse = [7, 6, 5, 4, 3, 2, 1, 0] := by decide
  rw [e, r] at this
  simp only [Nat.sub_self, Nat.add_zero, Nat.pow_zero, Nat.div_one] at this
  exact this

theorem newcZeros_fills (nul : Bool) {s : Bytes} {n : Nat} (h : s.length = n) : Fills nul s (newcZeros n) := by
  subst h
  unfold Fills newcZeros
  rw [List.length_append, List.length_replicate]
  exact ⟨by omega, by omega, fun _ b hb => List.eq_of_mem_replicate hb⟩

theorem newcEntry_of {nums : List Nat} {name data : Bytes} (hl : nums.length = 13) (hn : ∀ n ∈ nums, n < 2^32) (h6 : nums[6]? = some data.length)
    (h11 : nums[11]? = some (name.length + 1)) (h0 : 0 ∉ name) :
    NewcEntry true (newcMagic ++ (nums.map hexText).flatten ++ name ++ [0] ++ newcZeros (110 + name.length + 1) ++ data ++ newcZeros data.length) name data := by
  have hh : NewcHeader (newcMagic ++ (nums.map hexText).flatten) nums := by
    refine ⟨hl, _, by rw [List.length_map]; exact hl, rfl, fun i f n h1 h2 => ?_⟩
    rw [List.getElem?_map, h2] at h1
    cases h1
    exact hexText_hex n (hn n (List.mem_of_getElem? h2))
  have hlen := newcHeader_length hh
  refine ⟨_, _, newcZeros (110 + name.length + 1), newcZeros data.length, hh, h6, h11, h0, newcZeros_fills _ ?_, newcZeros_fills _ rfl, rfl⟩
  rw [List.length_append, List.length_append, hlen, List.length_singleton]

theorem newcText_entry {mode dev : Nat} {name data : Bytes} (hm : mode < 2^32) (hd : dev < 2^32) (hn : 0 ∉ name) (hnl : name.length + 1 < 2^32)
    (hdl : data.length < 2^32) : NewcEntry true (newcText mode dev name data) name data := by
  refine newcEntry_of (nums := [0, mode, 0, 0, 1, 0, data.length, 0, 0, dev / 256, dev % 256, name.length + 1, 0]) rfl (fun n h => ?_) rfl rfl hn
  simp only [List.mem_cons, List.not_mem_nil, or_false] at h
  omega

theorem usedArchive_newc {used : List Used} (hm : ∀ u ∈ used, u.file.mode < 2^32 ∧ u.file.rdev < 2^32) (hp : ∀ u ∈ used, 0 ∉ u.path ∧ u.path.length + 3 < 2^32)
    (hd : ∀ u ∈ used, u.data.length < 2^32 ∧ u.file.linkto.length < 2^32) : NewcArchive true (usedArchive used) (usedEntries used) := by
  induction used with
  | nil =>
    have : NewcArchive true (newcText 0 0 newcTrailerName [] ++ []) [] := .trailer (newcText_entry (by decide) (by decide) (by decide) (by decide) (by decide))
    simpa [usedArchive, usedEntries] using this
  | cons u used ih =>
    have h := ih (fun v hv => hm v (by simp [hv])) (fun v hv => hp v (by simp [hv])) (fun v hv => hd v (by simp [hv]))
    obtain ⟨m1, m2⟩ := hm u (by simp)
    obtain ⟨p1, p2⟩ := hp u (by simp)
    obtain ⟨d1, d2⟩ := hd u (by simp)
    have e : NewcEntry true (usedText u) ([46, 47] ++ u.path) (if u.file.link then u.file.linkto else u.data) := by
      refine newcText_entry m1 ?_ ?_ ?_ ?_
      · split
        · exact m2
        · decide
      · simpa using p1
      · simp; omega
      · split
        · exact d2
        · exact d1
    have := NewcArchive.entry e (by simp [newcTrailerName]) h
    simpa [usedArchive, usedEntries] using this

theorem newcArchive_mem {nul : Bool} {archive : Bytes} {ents : List (Bytes × Bytes)} (h : NewcArchive nul archive ents) :
    ∀ x ∈ ents, 0 ∉ x.1 ∧ x.2.length < 2^32 := by
  induction h with
  | trailer => nofun
  | entry hs _ _ ih =>
    intro x hx
    rcases List.mem_cons.mp hx with rfl | hx
    · obtain ⟨hd, nums, p, q, h1, h2, h3, h0, h4, h5, rfl⟩ := hs
      exact ⟨h0, (newcHeader_field h1 h2).2⟩
    · exact ih x hx

theorem uses_mem {colors : Bool} {unpatched : Bytes → Bytes → Bool} {files : List FileInfo} {ents : List (Bytes × Bytes)} {used : List Used}
    (h : Uses colors unpatched files ents used) : ∀ u ∈ used, ∃ x ∈ ents, u.path = pathOf x.1 ∧ u.data = x.2 ∧ files[u.number]? = some u.file := by
  induction h with
  | done => nofun
  | take h1 h2 _ ih =>
    intro u hu
    rcases List.mem_cons.mp hu with rfl | hu
    · exact ⟨_, List.mem_cons_self, rfl, rfl, h1.1⟩
    · obtain ⟨x, a, b⟩ := ih u hu
      exact ⟨x, by simp [a], b⟩
  | leave _ _ ih =>
    intro u hu
    obtain ⟨x, a, b⟩ := ih u hu
    exact ⟨x, by simp [a], b⟩

theorem pathOf_sublist (name : Bytes) : (pathOf name).Sublist name := by
  unfold pathOf
  split
  · exact (List.sublist_cons_self _ _).trans (List.sublist_cons_self _ _)
  · exact List.Sublist.refl _

/-! ## The number of offset adjustments -/

theorem adjust_one {m : MakeIn} {st : MkSt} {pos a : Nat} {adjs : List (Nat × Nat)} {prev : Nat} (h : adjust m st pos = .ok (adjs, prev))
    (hp : st.lenPrev ≤ st.cpio.data.length) (hl : st.cpio.data.length < 2^31) (ha : a < 2^31) (hpos : pos ≤ st.cpio.data.length + a) :
    adjs.length ≤ st.offadjs.length + 1 ∧ prev ≤ st.cpio.data.length := by
  unfold adjust at h
  split at h
  · rw [offadjLoop] at h
    have hgap : (st.cpio.data.length + 2^64 - st.lenPrev) % 2^64 % 2^32 = st.cpio.data.length - st.lenPrev := by omega
    simp only [hgap] at h
    rw [if_neg (by omega)] at h
    split at h
    · rw [if_neg (by omega)] at h
      cases h
      exact ⟨by simp, Nat.le_refl _⟩
    · rw [if_neg (by omega)] at h
      cases h
      exact ⟨by simp, Nat.le_refl _⟩
  · cases h
    exact ⟨by omega, hp⟩

theorem run_few {m : MakeIn} (hf : FilesFit m) (hl : m.archive.length < 2^31) {st st' : MkSt} {es : List AEnt} (h : Run m st es st') :
    st.lenPrev ≤ st.cpio.data.length → st.cpioPos ≤ st.cpio.data.length + st.arcOff → st.arcOff ≤ m.archive.length →
    st'.cpio.data.length < 2^31 →
    st'.offadjs.length ≤ st.offadjs.length + es.length ∧ st.arcOff + 110 * es.length ≤ m.archive.length := by
  induction h with
  | done _ _ _ h4 =>
    intro _ _ h _
    exact ⟨by rw [h4]; simp, by simpa using h⟩
  | @step st st1 st' e es _ hs h110 hrun ih =>
    intro hp hpos ho hlen
    have hmono := (run_spec hf hrun).1
    have hle : st1.cpio.data.length ≤ st'.cpio.data.length := by rw [hmono, List.length_append]; omega
    have harc := hs.arcOff
    have hfit := hs.fits
    have hstop : e.data ≤ e.stop := by unfold AEnt.stop; omega
    simp only [List.length_cons]
    cases hk : keepFile m e.name e.size with
    | none =>
      obtain ⟨s1, _, _, s4, s5, s6⟩ := hs.skip hk
      obtain ⟨i1, i2⟩ := ih (by rw [s1, s4]; exact hp) (by rw [s1, s6, harc]; omega) (by omega) hlen
      rw [s5] at i1
      exact ⟨by omega, by omega⟩
    | some x =>
      obtain ⟨i, f⟩ := x
      obtain ⟨s1, _, _, ⟨st0, t1, t2, t3, t4⟩, s5⟩ := hs.keep i f hk (keepFile_fits hf hk)
      have hlt : st.cpio.data.length ≤ st1.cpio.data.length := by rw [s1, List.length_append]; omega
      obtain ⟨a1, a2⟩ := adjust_one (a := st.arcOff) t4 (by rw [t1, t2]; exact hp) (by rw [t1]; omega) (by omega) (by rw [t1]; exact hpos)
      rw [t3] at a1
      rw [t1] at a2
      obtain ⟨i1, i2⟩ := ih (by omega) (by rw [s5, harc]; omega) (by omega) hlen
      exact ⟨by omega, by omega⟩

end Drpm
