import Verif.Patches
import Verif.UtilsLemmas
/-!
# Patched packages (C47)
-/

namespace Drpm

/-! ## Every attempt to use patch lists is undefined behaviour -/

/-- An error or undefined behaviour. -/
def Fails {α : Type} (x : Out α) : Prop := (∃ e, x = .err e) ∨ x = .ub

/-- A value or an error. -/
def Plainly {α : Type} (x : Out α) : Prop := (∃ a, x = .ok a) ∨ ∃ e, x = .err e

theorem Fails.bind_left {α β : Type} {x : Out α} (f : α → Out β) (h : Fails x) : Fails (x >>= f) := by
  rcases h with ⟨e, rfl⟩ | rfl
  · exact Or.inl ⟨e, rfl⟩
  · exact Or.inr rfl

theorem Fails.bind {α β : Type} {x : Out α} {f : α → Out β} (hx : Plainly x) (hf : ∀ a, Fails (f a)) : Fails (x >>= f) := by
  rcases hx with ⟨a, rfl⟩ | ⟨e, rfl⟩
  · exact hf a
  · exact Or.inl ⟨e, rfl⟩

theorem Plainly.bind {α β : Type} {x : Out α} {f : α → Out β} (hx : Plainly x) (hf : ∀ a, x = .ok a → Plainly (f a)) :
    Plainly (x >>= f) := by
  rcases hx with ⟨a, rfl⟩ | ⟨e, rfl⟩
  · exact hf a rfl
  · exact Or.inr ⟨e, rfl⟩

theorem Plainly.ok {α : Type} (a : α) : Plainly (.ok a : Out α) := Or.inl ⟨a, rfl⟩

theorem rpmlRead_eq {n : Nat} {b : Bytes} {r : Bytes × Bytes} (h : rpmlRead n b = .ok r) :
    r.1.length = n ∧ r.2.length + n = b.length ∧ r.2 = b.drop n := by
  unfold rpmlRead at h
  split at h
  · cases h
  · cases h
    simp only [List.length_take, List.length_drop, and_true]
    omega

theorem rpmlRead_plain (n : Nat) (b : Bytes) : Plainly (rpmlRead n b) := by
  unfold rpmlRead
  split
  · exact Or.inr ⟨_, rfl⟩
  · exact Plainly.ok _

theorem rpmlU16_plain (b : Bytes) : Plainly (rpmlU16 b) := by
  unfold rpmlU16
  refine Plainly.bind (rpmlRead_plain _ _) ?_
  rintro ⟨w, b'⟩ h
  have := (rpmlRead_eq h).1
  match w, this with
  | [x, y], _ => exact Plainly.ok _

theorem rpmlU32_plain (b : Bytes) : Plainly (rpmlU32 b) := by
  unfold rpmlU32
  refine Plainly.bind (rpmlRead_plain _ _) ?_
  rintro ⟨w, b'⟩ h
  have := (rpmlRead_eq h).1
  match w, this with
  | [x, y, z, t], _ => exact Plainly.ok _

theorem rpmlByte_plain (b : Bytes) : Plainly (rpmlByte b) := by
  unfold rpmlByte
  refine Plainly.bind (rpmlRead_plain _ _) ?_
  rintro ⟨w, b'⟩ h
  have := (rpmlRead_eq h).1
  match w, this with
  | [x], _ => exact Plainly.ok _

theorem rpmlString_plain (b : Bytes) : Plainly (rpmlString b) := by
  unfold rpmlString
  exact Plainly.bind (rpmlByte_plain _) fun a _ => Plainly.bind (rpmlRead_plain _ _) fun _ _ => Plainly.ok _

theorem rpmlSkipString_plain (b : Bytes) : Plainly (rpmlSkipString b) := by
  unfold rpmlSkipString
  exact Plainly.bind (rpmlByte_plain _) fun a _ => Plainly.ok _

theorem rpmlNameLen_plain (l : Nat) (b : Bytes) : Plainly (rpmlNameLen l b) := by
  unfold rpmlNameLen
  split
  · exact rpmlU16_plain _
  · exact Plainly.ok _

theorem rpmlFilename_fails (b : Bytes) : Fails (rpmlFilename false none b) := by
  unfold rpmlFilename
  refine Fails.bind (rpmlByte_plain _) fun x => ?_
  refine Fails.bind (rpmlByte_plain _) fun y => ?_
  refine Fails.bind (rpmlNameLen_plain _ _) fun z => ?_
  exact Or.inr rfl

theorem skipStrings_plain : ∀ (n : Nat) (b : Bytes), Plainly (skipStrings n b) := by
  intro n
  induction n with
  | zero => intro b; exact Plainly.ok _
  | succ n ih => intro b; exact Plainly.bind (rpmlSkipString_plain _) fun _ _ => ih _

theorem fileList_fails (fuel : Nat) (files : Option (List PatchFile)) (b : Bytes) :
    Fails (fileList false (fuel + 1) none files b) := by
  rw [fileList]
  exact Fails.bind_left _ (rpmlFilename_fails b)

/-- The result of the first loop: nothing is known yet, or it failed. -/
theorem unpatchedList_cases (count : Nat) (b : Bytes) :
    Fails (unpatchedList false count b) ∨ ∃ b', unpatchedList false count b = .ok (none, none, b') := by
  unfold unpatchedList
  split
  · have hs := skipStrings_plain count b
    rcases hs with ⟨b1, h1⟩ | ⟨e, h1⟩
    · rw [h1, Out.bind_ok]
      rcases rpmlU32_plain b1 with ⟨⟨n, b2⟩, h2⟩ | ⟨e, h2⟩
      · rw [h2, Out.bind_ok]
        cases n with
        | zero => exact Or.inr ⟨b2, rfl⟩
        | succ n => exact Or.inl (Or.inr rfl)
      · rw [h2]; exact Or.inl (Or.inl ⟨e, rfl⟩)
    · rw [h1]; exact Or.inl (Or.inl ⟨e, rfl⟩)
  · exact Or.inr ⟨b, rfl⟩

theorem readRpmlist_fails (skip : Bool) (b : Bytes) : Fails (readRpmlist false skip b) := by
  unfold readRpmlist
  have hm : Plainly (rpmlMagic skip b) := by
    unfold rpmlMagic
    split
    · exact Plainly.ok _
    · refine Plainly.bind (rpmlU32_plain _) fun a _ => ?_
      simp only
      split
      · exact Or.inr ⟨_, rfl⟩
      · exact Plainly.ok _
  refine Fails.bind hm fun b => ?_
  refine Fails.bind (rpmlString_plain _) fun x => ?_
  refine Fails.bind (rpmlString_plain _) fun y => ?_
  refine Fails.bind (rpmlSkipString_plain _) fun b => ?_
  refine Fails.bind (rpmlU32_plain _) fun z => ?_
  refine Fails.bind (rpmlU16_plain _) fun c => ?_
  obtain ⟨c, b⟩ := c
  rcases unpatchedList_cases c b with h | ⟨b', h⟩
  · exact Fails.bind_left _ h
  · simp only
    rw [h, Out.bind_ok]
    exact Fails.bind_left _ (fileList_fails _ _ _)

/-- C47 is false of the code, and for every input: whatever the lists contain, and even if they
    cannot be opened, a `drpm_make` that is given two patch lists for a standard delta executes
    undefined behaviour (it uses `filename_len`, `files` and `file_count` before anything was stored
    in them, or walks over uninitialised lists when it cleans up after an error). -/
theorem C47_violated (rpm : Out (Bytes × List FileInfo)) (file : Bytes → Option Bytes) (env : MakeEnv) (o : Opts Bytes)
    (old new : Option (Out Rpm)) (hpkg : old ≠ none ∨ new ≠ none) (ho : o.rpmOnly = false)
    (print patch : Bytes) (h1 : o.oldrpmprint = some print) (h2 : o.oldpatchrpm = some patch) :
    drpmMakePatched false rpm file env o old new = .ub := by
  have hf : Fails (readBoth false rpm (file print) (file patch)) := by
    unfold readBoth
    cases file patch with
    | none => exact Or.inl ⟨_, rfl⟩
    | some b => exact Fails.bind_left _ (readRpmlist_fails false b)
  have hd : orDestroy false (readBoth false rpm (file print) (file patch)) = .ub := by
    rcases hf with ⟨e, h⟩ | h <;> rw [h] <;> rfl
  unfold drpmMakePatched
  rw [if_neg (by cases old <;> cases new <;> simp at hpkg ⊢), if_neg (by rw [ho]; simp)]
  unfold makePatches
  rw [if_neg (by rw [ho]; simp), h1, h2]
  simp only [Option.map_some, patchesRead]
  rw [hd]
  rfl

/-- There are lists the code should be able to read, options that name them, and packages; the
    conditions of `C47_violated` ask for nothing more. -/
example : ∃ o : Opts Bytes, o.rpmOnly = false ∧ o.oldrpmprint = some [112] ∧ o.oldpatchrpm = some [113] :=
  ⟨{ rpmOnly := false, version := 3, compFromRpm := true, comp := 0, compLevel := 0, addblk := true, addblkComp := 2
     addblkLevel := 0, seqfile := none, oldrpmprint := some [112], oldpatchrpm := some [113], mbytes := 0 }, rfl, rfl, rfl⟩

/-! ## Even with zeroed memory the lists do not say what they should -/

theorem fresh_true {α : Type} (v : α) : fresh true v = .ok v := rfl

theorem readMd5_zero {mode num : Nat} {b : Bytes} {r : Bytes × Bytes} (h : readMd5 mode num b = .ok r) : r.1 = zeros 16 := by
  unfold readMd5 at h
  split at h
  · split at h
    · cases h; rfl
    · rw [Out.bind_eq_ok] at h
      obtain ⟨v, _, h⟩ := h
      split at h
      · cases h
      · cases h; rfl
  · cases h; rfl

theorem fileRest_zero {b : Bytes} {r : Nat × Bytes × Bytes} (h : fileRest b = .ok r) : r.2.1 = zeros 16 := by
  unfold fileRest at h
  rw [Out.bind_eq_ok] at h
  obtain ⟨⟨mode, b1⟩, _, h⟩ := h
  simp only at h
  split at h
  · rw [Out.bind_eq_ok] at h
    obtain ⟨⟨num, b2⟩, _, h⟩ := h
    rw [Out.bind_eq_ok] at h
    obtain ⟨b3, _, h⟩ := h
    rw [Out.bind_eq_ok] at h
    obtain ⟨r3, h3, h⟩ := h
    cases h
    exact readMd5_zero h3
  · cases h; rfl

/-- What the entries of a list are like. -/
def Blank (f : PatchFile) : Prop := f.md5 = zeros 16 ∧ (f.flags = 1024 ∨ f.name = [])

theorem fileList_blank : ∀ (fuel : Nat) (buf : Option Bytes) (files : Option (List PatchFile)) (b : Bytes)
    (r : List PatchFile), fileList true fuel buf files b = .ok r → (∀ f ∈ files.getD [], Blank f) →
    (∀ f ∈ r, Blank f) ∧ ∃ l, r = files.getD [] ++ l ∧ ∀ f ∈ l, f.name = [] := by
  intro fuel
  induction fuel with
  | zero => intro buf files b r h; cases h
  | succ fuel ih =>
    intro buf files b r h hall
    rw [fileList, Out.bind_eq_ok] at h
    obtain ⟨⟨buf', b1⟩, _, h⟩ := h
    simp only at h
    split at h
    · cases h
      exact ⟨hall, [], by simp⟩
    · rw [Out.bind_eq_ok] at h
      obtain ⟨fs, hfs, h⟩ := h
      have hfs : fs = files.getD [] := by
        cases files with
        | none => cases hfs; rfl
        | some f => cases hfs; rfl
      rw [fresh_true, Out.bind_ok, Out.bind_eq_ok] at h
      obtain ⟨⟨mode, md5, b2⟩, h2, h⟩ := h
      have hz := fileRest_zero h2
      simp only at hz h
      have hnew : ∀ f ∈ fs ++ [⟨[], mode, 0, md5⟩], Blank f := by
        intro f hf
        rcases List.mem_append.mp hf with hf | hf
        · exact hall f (hfs ▸ hf)
        · rw [List.mem_singleton] at hf
          subst hf
          exact ⟨hz, Or.inr rfl⟩
      obtain ⟨g1, l, g2, g3⟩ := ih _ _ _ _ h hnew
      refine ⟨g1, ⟨[], mode, 0, md5⟩ :: l, ?_, ?_⟩
      · rw [g2, hfs]; simp
      · intro f hf
        rcases List.mem_cons.mp hf with rfl | hf
        · rfl
        · exact g3 f hf

theorem unpatchedNames_blank : ∀ (n : Nat) (buf : Option Bytes) (files : Option (List PatchFile)) (b : Bytes)
    (r : Option Bytes × Option (List PatchFile) × Bytes), unpatchedNames true n buf files b = .ok r →
    (∀ f ∈ files.getD [], f.md5 = zeros 16 ∧ f.flags = 1024) → ∀ f ∈ r.2.1.getD [], f.md5 = zeros 16 ∧ f.flags = 1024 := by
  intro n
  induction n with
  | zero => intro buf files b r h hall; cases h; exact hall
  | succ n ih =>
    intro buf files b r h hall
    rw [unpatchedNames, Out.bind_eq_ok] at h
    obtain ⟨fs, hfs, h⟩ := h
    have hfs : fs = files.getD [] := by
      cases files with
      | none => cases hfs; rfl
      | some f => cases hfs; rfl
    rw [Out.bind_eq_ok] at h
    obtain ⟨⟨buf', b1⟩, _, h⟩ := h
    refine ih _ _ _ _ h ?_
    intro f hf
    rcases List.mem_append.mp hf with hf | hf
    · exact hall f (hfs ▸ hf)
    · rw [List.mem_singleton] at hf
      subst hf
      exact ⟨rfl, rfl⟩

theorem readRpmlist_blank {skip : Bool} {b : Bytes} {p : PatchInfo} (h : readRpmlist true skip b = .ok p) :
    ∀ f ∈ p.files, Blank f := by
  unfold readRpmlist at h
  rw [Out.bind_eq_ok] at h
  obtain ⟨b1, _, h⟩ := h
  rw [Out.bind_eq_ok] at h
  obtain ⟨x, _, h⟩ := h
  rw [Out.bind_eq_ok] at h
  obtain ⟨y, _, h⟩ := h
  rw [Out.bind_eq_ok] at h
  obtain ⟨b2, _, h⟩ := h
  rw [Out.bind_eq_ok] at h
  obtain ⟨z, _, h⟩ := h
  rw [Out.bind_eq_ok] at h
  obtain ⟨c, _, h⟩ := h
  rw [Out.bind_eq_ok] at h
  obtain ⟨⟨buf, files, b3⟩, h1, h⟩ := h
  rw [Out.bind_eq_ok] at h
  obtain ⟨fs, h2, h⟩ := h
  cases h
  refine (fileList_blank _ _ _ _ _ h2 ?_).1
  unfold unpatchedList at h1
  split at h1
  · rw [Out.bind_eq_ok] at h1
    obtain ⟨b4, _, h1⟩ := h1
    rw [Out.bind_eq_ok] at h1
    obtain ⟨w, _, h1⟩ := h1
    intro f hf
    obtain ⟨a, b⟩ := unpatchedNames_blank _ _ _ _ _ h1 (by simp) f hf
    exact ⟨a, Or.inl b⟩
  · cases h1; simp

/-- Even if fresh memory happens to be zero, no list is read as it was written: in every list that
    is accepted, all checksums are zero, and all files except those declared unpatched have the
    empty name. -/
theorem C47_violated_zeroed (rpm : Out (Bytes × List FileInfo)) (print patch : Option Bytes) (p : RpmPatches)
    (h : patchesRead true rpm (some print) (some patch) = .ok (some p)) :
    (∀ f ∈ p.rpmprint.files ++ p.patchrpm.files, f.md5 = zeros 16 ∧ (f.flags = 1024 ∨ f.name = [])) ∧
    (∀ name md5 md5', md5 ≠ dumpHex (zeros 16) → md5' ≠ dumpHex (zeros 16) →
      isUnpatched p name md5 = isUnpatched p name md5') := by
  simp only [patchesRead] at h
  rw [Out.bind_eq_ok] at h
  obtain ⟨q, h1, h⟩ := h
  cases h
  have h2 : readBoth true rpm print patch = .ok p := by
    cases hr : readBoth true rpm print patch with
    | ok a => rw [hr] at h1; exact h1
    | err e => rw [hr] at h1; cases h1
    | ub => rw [hr] at h1; cases h1
    | loop => rw [hr] at h1; cases h1
  have hall : ∀ f ∈ p.rpmprint.files ++ p.patchrpm.files, Blank f := by
    unfold readBoth at h2
    cases patch with
    | none => cases h2
    | some b =>
      rw [Out.bind_eq_ok] at h2
      obtain ⟨q, k1, h2⟩ := h2
      cases print with
      | none => cases h2
      | some b' =>
        simp only at h2
        rw [Out.bind_eq_ok] at h2
        obtain ⟨p', k2, h2⟩ := h2
        cases h2
        intro f hf
        rcases List.mem_append.mp hf with hf | hf
        · unfold readPrint at k2
          rw [Out.bind_eq_ok] at k2
          obtain ⟨⟨m, b2⟩, _, k2⟩ := k2
          simp only at k2
          split at k2
          · rw [Out.bind_eq_ok] at k2
            obtain ⟨⟨n, fs⟩, _, k2⟩ := k2
            simp only [printOfRpm] at k2
            split at k2
            · cases k2; cases hf
            · cases k2
          · split at k2
            · exact readRpmlist_blank k2 f hf
            · cases k2
        · exact readRpmlist_blank k1 f hf
  refine ⟨hall, fun name md5 md5' n1 n2 => ?_⟩
  unfold isUnpatched
  split
  · rfl
  · split
    · rfl
    · split
      · rfl
      · rename_i g hg
        have := (hall g (List.mem_append.mpr (Or.inr (List.mem_of_find?_eq_some hg)))).1
        rw [this, bne_iff_ne.mpr n1, bne_iff_ne.mpr n2]

/-- A list that is accepted when memory is zeroed: name "a", version "1", no build host, one patch
    with a name of length zero, one unpatched file "b", and a file "c" with its mode and size. -/
def demoList : Bytes :=
  [0x52, 0x50, 0x4D, 0x4C, 1, 97, 1, 49, 0, 0, 0, 0, 0, 0, 1, 0, 0, 0, 0, 1, 0, 1, 98, 0, 1, 99, 0x81, 0xA4, 0, 5, 0, 0]

example : Out.okAnd (patchesRead true (.err .io) (some (some demoList)) (some (some demoList)))
    (fun p => match p with
      | some p => p.rpmprint.files.map (fun f => (f.name, f.flags)) = [([98], 1024), ([], 0)] ∧
          isUnpatched p [98] [1] = true ∧ isUnpatched p [99] [1] = false
      | none => false) = true := by decide +kernel

/-! ## The parts that work -/

/-- C47, what holds. (1) With at most one list named, or for an rpm-only delta, the result is that
    without lists. (2) On lists that are already in memory the decision is the documented one: a
    file is left out exactly if the first entry of its name in the print is marked unpatched and,
    if it is listed in the patch package, the first such entry has another checksum. What is
    missing: the lists never get into memory, see `C47_violated`. -/
theorem C47_partial :
    (∀ zeroed rpm file env o old new, old ≠ none ∨ new ≠ none → ¬(o.rpmOnly = true ∧ o.version < 3) →
      o.rpmOnly = true ∨ o.oldrpmprint = none ∨ o.oldpatchrpm = none →
      drpmMakePatched zeroed rpm file env o old new = drpmMake { env with unpatched := fun _ _ => false } o old new) ∧
    (∀ p name md5, isUnpatched p name md5 = true ↔
      ∃ f, p.rpmprint.files.find? (fun f => f.name == name) = some f ∧ f.flags &&& 1024 ≠ 0 ∧
        ∀ g, p.patchrpm.files.find? (fun f => f.name == name) = some g → md5 ≠ dumpHex g.md5) := by
  refine ⟨?_, ?_⟩
  · intro zeroed rpm file env o old new h1 h2 h3
    unfold drpmMakePatched
    rw [if_neg (by cases old <;> cases new <;> simp at h1 ⊢), if_neg h2]
    have : makePatches zeroed rpm file o = .ok none := by
      unfold makePatches
      split
      · rfl
      · rename_i ho
        rcases h3 with h | h | h
        · exact absurd h ho
        · rw [h]; rfl
        · rw [h]; cases o.oldrpmprint <;> rfl
    rw [this, Out.bind_ok]
  · intro p name md5
    unfold isUnpatched
    cases h1 : p.rpmprint.files.find? (fun f => f.name == name) with
    | none => simp
    | some f =>
      simp only [Option.some.injEq, exists_eq_left']
      by_cases hf : f.flags &&& 1024 = 0
      · simp [hf]
      · rw [if_neg hf]
        cases h2 : p.patchrpm.files.find? (fun f => f.name == name) with
        | none => simp [hf]
        | some g => simp [hf]

example : isUnpatched ⟨⟨[], [⟨[97], 0, 1024, []⟩]⟩, ⟨[], [⟨[97], 0, 0, [1]⟩]⟩⟩ [97] [48, 48] = true ∧
    isUnpatched ⟨⟨[], [⟨[97], 0, 1024, []⟩]⟩, ⟨[], [⟨[97], 0, 0, [1]⟩]⟩⟩ [97] [48, 49] = false := by decide

/-! ## Lists in zeroed memory -/

/-- The length of the new part of a name: one byte, or 255 and two bytes. -/
def frontLen (n : Nat) : Bytes := if n < 255 then [UInt8.ofNat n] else [255, UInt8.ofNat (n / 256), UInt8.ofNat n]

/-- A list of names, each with the number of bytes it shares with the one before. -/
def frontCode : List (Nat × Bytes) → Bytes
  | [] => []
  | (off, name) :: l => [UInt8.ofNat off] ++ frontLen (name.length - off) ++ name.drop off ++ frontCode l

/-- The names are C strings that can be stored in this way; `prev` is the name before. -/
def FrontOk : Bytes → List (Nat × Bytes) → Prop
  | _, [] => True
  | prev, (off, name) :: l => off < 256 ∧ off ≤ prev.length ∧ name.take off = prev.take off ∧ off ≤ name.length ∧
      name.length - off < 65536 ∧ (∀ x ∈ name, x ≠ 0) ∧ FrontOk name l

theorem rpmlRead_append (a b : Bytes) : rpmlRead a.length (a ++ b) = .ok (a, b) := by
  unfold rpmlRead
  rw [if_neg (by rw [List.length_append]; omega), List.take_left, List.drop_left]

theorem rpmlByte_cons (x : UInt8) (b : Bytes) : rpmlByte (x :: b) = .ok (x.toNat, b) := by
  unfold rpmlByte
  rw [show rpmlRead 1 (x :: b) = .ok ([x], b) from rpmlRead_append [x] b, Out.bind_ok]

theorem rpmlFilename_front (buf : Option Bytes) (prev name : Bytes) (off : Nat) (rest : Bytes) (h1 : off < 256) (h2 : off ≤ prev.length)
    (h3 : name.take off = prev.take off) (h5 : name.length - off < 65536)
    (hb : ∃ t, buf.getD [] = prev ++ t) :
    ∃ t, rpmlFilename true buf ([UInt8.ofNat off] ++ frontLen (name.length - off) ++ name.drop off ++ rest) = .ok (name ++ 0 :: t, rest) := by
  obtain ⟨t, ht⟩ := hb
  have hlen : ∃ l tail, frontLen (name.length - off) ++ name.drop off ++ rest = l :: tail ∧
      rpmlNameLen l.toNat tail = .ok (name.length - off, name.drop off ++ rest) := by
    unfold frontLen
    split
    · rename_i h
      refine ⟨_, _, rfl, ?_⟩
      have : (UInt8.ofNat (name.length - off)).toNat = name.length - off := by
        rw [UInt8.toNat_ofNat']; omega
      rw [this]
      unfold rpmlNameLen
      rw [if_neg (by omega)]
      rfl
    · rename_i h
      refine ⟨_, _, rfl, ?_⟩
      unfold rpmlNameLen
      rw [if_pos (by decide)]
      unfold rpmlU16
      have e := rpmlRead_append [UInt8.ofNat ((name.length - off) / 256), UInt8.ofNat (name.length - off)] (name.drop off ++ rest)
      rw [← List.append_assoc] at e
      refine (congrArg (fun x => x >>= _) e).trans ?_
      rw [Out.bind_ok]
      simp only [parseBe16_val, UInt8.toNat_ofNat']
      congr 2
      omega
  obtain ⟨l, tail, e1, e2⟩ := hlen
  have hz : orFresh true buf [] = .ok (buf.getD []) := by cases buf <;> rfl
  refine ⟨(prev ++ t ++ zeros (off + (name.drop off).length + 1 - (prev ++ t).length)).drop (off + (name.drop off).length + 1), ?_⟩
  · unfold rpmlFilename
    rw [List.append_assoc, List.append_assoc, ← List.append_assoc (frontLen _), e1]
    show (do let (off, b) ← rpmlByte (UInt8.ofNat off :: l :: tail); _) = _
    rw [rpmlByte_cons, Out.bind_ok]
    simp only
    rw [rpmlByte_cons, Out.bind_ok]
    simp only
    rw [e2, Out.bind_ok]
    simp only
    rw [hz, Out.bind_ok, show name.length - off = (name.drop off).length by rw [List.length_drop], rpmlRead_append, Out.bind_ok, ht]
    have ho : (UInt8.ofNat off).toNat = off := by rw [UInt8.toNat_ofNat']; omega
    simp only [ho]
    rw [List.append_assoc prev, List.take_append_of_le_length h2, ← h3, List.take_append_drop, List.append_assoc, List.singleton_append]

theorem cstr_zero (name t : Bytes) (h : ∀ x ∈ name, x ≠ 0) : cstr (name ++ 0 :: t) = name := by
  unfold cstr
  induction name with
  | nil => rfl
  | cons x name ih =>
    rw [List.cons_append, List.takeWhile_cons, if_pos (by simpa using h x List.mem_cons_self),
      ih (fun y hy => h y (List.mem_cons_of_mem _ hy))]

theorem unpatchedNames_front : ∀ (l : List (Nat × Bytes)) (prev : Bytes) (buf : Option Bytes) (files : Option (List PatchFile)) (rest : Bytes),
    FrontOk prev l → (∃ t, buf.getD [] = prev ++ t) →
    ∃ buf' files', unpatchedNames true l.length buf files (frontCode l ++ rest) = .ok (buf', files', rest) ∧
      files'.getD [] = files.getD [] ++ l.map (fun x => ⟨x.2, 0o100000, 1024, zeros 16⟩) := by
  intro l
  induction l with
  | nil => intro prev buf files rest _ _; exact ⟨buf, files, rfl, by simp⟩
  | cons x l ih =>
    obtain ⟨off, name⟩ := x
    intro prev buf files rest ⟨h1, h2, h3, _, h5, h6, h7⟩ hb
    obtain ⟨t, ht⟩ := rpmlFilename_front buf prev name off (frontCode l ++ rest) h1 h2 h3 h5 hb
    have hz : orFresh true files [] = .ok (files.getD []) := by cases files <;> rfl
    obtain ⟨b', f', e1, e2⟩ := ih name (some (name ++ 0 :: t)) (some (files.getD [] ++ [⟨name, 0o100000, 1024, zeros 16⟩])) rest h7 ⟨0 :: t, rfl⟩
    refine ⟨b', f', ?_, ?_⟩
    · rw [List.length_cons, unpatchedNames, hz, Out.bind_ok, frontCode, List.append_assoc, ht, Out.bind_ok]
      simp only
      rw [cstr_zero name t h6]
      exact e1
    · rw [e2]
      simp

/-- C47 (names): if fresh memory happens to hold zeros, the names of the unpatched files are read as they
    were written, each built on the one before. -/
theorem C47_names_partial (l : List (Nat × Bytes)) (rest : Bytes) (h : FrontOk [] l) :
    ∃ buf files, unpatchedNames true l.length none none (frontCode l ++ rest) = .ok (buf, files, rest) ∧
      (files.getD []).map (·.name) = l.map (·.2) ∧ ∀ f ∈ files.getD [], f.flags = 1024 := by
  obtain ⟨buf, files, h1, h2⟩ := unpatchedNames_front l [] none none rest h ⟨[], rfl⟩
  refine ⟨buf, files, h1, ?_, ?_⟩
  · rw [h2]
    simp [List.map_map, Function.comp_def]
  · intro f hf
    rw [h2] at hf
    simp only [Option.getD_none, List.nil_append, List.mem_map] at hf
    obtain ⟨_, _, rfl⟩ := hf
    rfl

/-- Non-vacuity: "/usr/bin/a" and "/usr/bin/bc", which shares nine bytes with it. -/
example : FrontOk [] [(0, [47, 117, 115, 114, 47, 98, 105, 110, 47, 97]), (9, [47, 117, 115, 114, 47, 98, 105, 110, 47, 98, 99])] ∧
    frontCode [(0, [47, 97]), (1, [47, 98, 99])] = [0, 2, 47, 97, 1, 2, 98, 99] := by
  refine ⟨⟨by decide, by decide, by decide, by decide, by decide, by decide, by decide, by decide, by decide, by decide, by decide,
    by decide, trivial⟩, by decide +kernel⟩

/-- C47 (refusals): lists that are for another package are refused, whichever of the two it is, and a patch
    list that does not begin with "RPML" is. -/
theorem C47_refused_partial (rpm : Out (Bytes × List FileInfo)) (file : Bytes → Option Bytes) (env : MakeEnv)
    (o : Opts Bytes) (old new : Option (Out Rpm)) (hpkg : old ≠ none ∨ new ≠ none) (ho : o.rpmOnly = false) (zeroed : Bool) :
    (∀ p n, makePatches zeroed rpm file o = .ok (some p) → oldNevr old new = .ok n →
      p.rpmprint.nevr ≠ n ∨ p.patchrpm.nevr ≠ n → drpmMakePatched zeroed rpm file env o old new = .err .args) ∧
    (∀ print patch b, o.oldrpmprint = some print → o.oldpatchrpm = some patch → file patch = some b →
      ¬ [0x52, 0x50, 0x4D, 0x4C] <+: b → drpmMakePatched true rpm file env o old new = .err .format) := by
  have hn : ¬ (old.isNone ∧ new.isNone) := by cases old <;> cases new <;> simp at hpkg ⊢
  refine ⟨?_, ?_⟩
  · intro p n h1 h2 h3
    unfold drpmMakePatched
    rw [if_neg hn, if_neg (by simp [ho]), h1, Out.bind_ok]
    simp only
    rw [h2, Out.bind_ok]
    unfold patchesNevr
    rw [if_neg (by rintro ⟨a, b⟩; rcases h3 with h | h <;> contradiction), Out.bind_err]
  · intro print patch b h1 h2 h3 h4
    have hm : rpmlMagic false b = .err .format := by
      unfold rpmlMagic
      rw [if_neg (by simp)]
      unfold rpmlU32
      by_cases hl : b.length < 4
      · unfold rpmlRead
        rw [if_pos hl]
        rfl
      · match b, hl with
        | [], hl => exact absurd (by decide) hl
        | [_], hl => exact absurd (by simp) hl
        | [_, _], hl => exact absurd (by simp) hl
        | [_, _, _], hl => exact absurd (by simp) hl
        | x :: y :: z :: t :: b, _ =>
          rw [show rpmlRead 4 (x :: y :: z :: t :: b) = .ok ([x, y, z, t], b) from rpmlRead_append [x, y, z, t] b, Out.bind_ok]
          simp only
          rw [show be32At [x, y, z, t] = .ok (parseBe32 x y z t) from rfl, Out.bind_ok, Out.bind_ok, parseBe32_val]
          simp only
          have lx := x.toNat_lt
          have ly := y.toNat_lt
          have lz := z.toNat_lt
          have lt := t.toNat_lt
          rw [if_pos]
          intro hv
          have ex : x = 0x52 := UInt8.toNat_inj.mp (by show x.toNat = 0x52; omega)
          have ey : y = 0x50 := UInt8.toNat_inj.mp (by show y.toNat = 0x50; omega)
          have ez : z = 0x4D := UInt8.toNat_inj.mp (by show z.toNat = 0x4D; omega)
          have et : t = 0x4C := UInt8.toNat_inj.mp (by show t.toNat = 0x4C; omega)
          exact h4 ⟨b, by rw [ex, ey, ez, et]; rfl⟩
    unfold drpmMakePatched
    rw [if_neg hn, if_neg (by simp [ho])]
    unfold makePatches
    rw [if_neg (by simp [ho]), h1, h2]
    simp only [Option.map_some, h3, patchesRead]
    unfold readBoth
    simp only
    unfold readRpmlist
    rw [hm]
    rfl

end Drpm
