import Verif.Apply
/-!
# Colours are not looked at when a delta is applied

`rpm_get_file_info` delivers them only when making a delta.
-/

namespace Drpm

/-- A file without its colour. -/
def FileInfo.noColor (f : FileInfo) : FileInfo := { f with color := 0 }

/-- The file lists differ in colours at most. -/
def SameButColors (fs fs' : List FileInfo) : Prop := fs.map (·.noColor) = fs'.map (·.noColor)

theorem rd_noColor {β : Type} (fs : List FileInfo) (i : Nat) (k k' : FileInfo → Out β) (h : ∀ f, k f.noColor = k' f) :
    (rd (fs.map (·.noColor)) i >>= k) = (rd fs i >>= k') := by
  unfold rd
  rw [List.getElem?_map]
  cases fs[i]? with
  | none => rfl
  | some f => exact h f

theorem seqLoop_noColor (fs : List FileInfo) (algo : Nat) (check : Bytes → Bytes → Nat → Out Unit) (ps : List Nat) :
    ∀ md out off, seqLoop (fs.map (·.noColor)) algo check ps md out off = seqLoop fs algo check ps md out off := by
  induction ps with
  | nil => intros; rfl
  | cons i ps ih =>
    intro md out off
    rw [seqLoop, seqLoop]
    refine rd_noColor _ _ _ _ (fun f => ?_)
    have e : seqMd5 algo check f.noColor = seqMd5 algo check f := rfl
    rw [e]
    congr 1
    funext b
    exact ih _ _ _

theorem expandSeq_noColor (H : Bytes → Bytes) (fs : List FileInfo) (algo : Nat) (check : Bytes → Bytes → Nat → Out Unit) (s : Bytes) :
    expandSeq H (fs.map (·.noColor)) algo check s = expandSeq H fs algo check s := by
  unfold expandSeq
  rw [List.length_map]
  simp only [seqLoop_noColor]

theorem stdContent_noColor (a : Bytes) (fs : List FileInfo) (pl : List CpioFile) :
    stdContent ⟨a, fs.map (·.noColor), pl⟩ = stdContent ⟨a, fs, pl⟩ := by
  funext cpio s n
  unfold stdContent
  cases cpio.index with
  | none => rfl
  | some i => exact rd_noColor _ _ _ _ (fun f => rfl)

theorem stdNext_noColor (a : Bytes) (fs : List FileInfo) (pl : List CpioFile) :
    stdNext ⟨a, fs.map (·.noColor), pl⟩ = stdNext ⟨a, fs, pl⟩ := by
  funext s
  unfold stdNext
  simp only
  congr 1
  funext cpio
  cases cpio.index with
  | none => rfl
  | some i => exact rd_noColor _ _ _ _ (fun f => rfl)

theorem stdEmit_noColor (a : Bytes) (fs : List FileInfo) (pl : List CpioFile) :
    stdEmit ⟨a, fs.map (·.noColor), pl⟩ = stdEmit ⟨a, fs, pl⟩ := by
  funext s len
  unfold stdEmit stdBody
  rw [stdContent_noColor]

theorem stdLoop_noColor (a : Bytes) (fs : List FileInfo) (pl : List CpioFile) (fuel : Nat) :
    ∀ s len acc, stdLoop ⟨a, fs.map (·.noColor), pl⟩ fuel s len acc = stdLoop ⟨a, fs, pl⟩ fuel s len acc := by
  induction fuel with
  | zero => intros; rfl
  | succ fuel ih =>
    intro s len acc
    have e : stdAtEnd ⟨a, fs.map (·.noColor), pl⟩ = stdAtEnd ⟨a, fs, pl⟩ := rfl
    rw [stdLoop, stdLoop, stdEmit_noColor, e, stdNext_noColor]
    simp only [ih]

theorem stdStep_noColor (a : Bytes) (fs : List FileInfo) (pl : List CpioFile) :
    stdStep ⟨a, fs.map (·.noColor), pl⟩ = stdStep ⟨a, fs, pl⟩ := by
  funext s
  exact stdLoop_noColor _ _ _ _ _ _ _

section
variable (disk : Disk) (fs : List FileInfo) (pl : List CpioFile)

theorem openNew_noColor : openNew ⟨disk, fs.map (·.noColor), pl⟩ = openNew ⟨disk, fs, pl⟩ := by
  funext s i
  unfold openNew
  simp only
  congr 1
  funext cpio
  cases cpio.index with
  | none => rfl
  | some i => exact rd_noColor _ _ _ _ (fun f => rfl)

theorem needOpen_noColor : needOpen ⟨disk, fs.map (·.noColor), pl⟩ = needOpen ⟨disk, fs, pl⟩ := by
  funext s i
  unfold needOpen
  rw [openNew_noColor]
  rfl

theorem fsContent_noColor : fsContent ⟨disk, fs.map (·.noColor), pl⟩ = fsContent ⟨disk, fs, pl⟩ := by
  funext s cpio i off len
  unfold fsContent
  refine rd_noColor _ _ _ _ (fun f => ?_)
  unfold fsFile
  rw [needOpen_noColor]
  rfl

theorem loadHeader_noColor : loadHeader ⟨disk, fs.map (·.noColor), pl⟩ = loadHeader ⟨disk, fs, pl⟩ := by
  funext s k
  unfold loadHeader
  simp only
  congr 1
  funext cpio
  cases cpio.index with
  | none => rfl
  | some i => exact rd_noColor _ _ _ _ (fun f => rfl)

theorem fsLoop_noColor (fuel : Nat) : ∀ s k off len acc,
    fsLoop ⟨disk, fs.map (·.noColor), pl⟩ fuel s k off len acc = fsLoop ⟨disk, fs, pl⟩ fuel s k off len acc := by
  induction fuel with
  | zero => intros; rfl
  | succ fuel ih =>
    intro s k off len acc
    rw [fsLoop, fsLoop, loadHeader_noColor, fsContent_noColor]
    simp only [ih]

theorem fsBlock_noColor : fsBlock ⟨disk, fs.map (·.noColor), pl⟩ = fsBlock ⟨disk, fs, pl⟩ := by
  funext s id
  unfold fsBlock enterEntry
  rw [loadHeader_noColor]
  simp only [fsLoop_noColor]

theorem plHere_noColor : plHere ⟨disk, fs.map (·.noColor), pl⟩ = plHere ⟨disk, fs, pl⟩ := by
  funext id k pre
  unfold plHere
  simp only
  congr 1
  funext cpio
  cases cpio.index with
  | none => rfl
  | some i =>
    simp only
    congr 1
    exact rd_noColor _ _ _ _ (fun f => rfl)

theorem plStart_noColor (fuel : Nat) : ∀ id k pre,
    plStart ⟨disk, fs.map (·.noColor), pl⟩ fuel id k pre = plStart ⟨disk, fs, pl⟩ fuel id k pre := by
  induction fuel with
  | zero => intros; rfl
  | succ fuel ih =>
    intro id k pre
    rw [plStart, plStart, plHere_noColor]
    simp only [ih]

theorem plSeek_noColor : plSeek ⟨disk, fs.map (·.noColor), pl⟩ = plSeek ⟨disk, fs, pl⟩ := by
  funext id s
  unfold plSeek
  cases s.fd with
  | none => rfl
  | some d =>
    simp only
    congr 1
    funext cpio
    cases cpio.index with
    | none => rfl
    | some i => exact rd_noColor _ _ _ _ (fun f => rfl)

theorem plHeader_noColor : plHeader ⟨disk, fs.map (·.noColor), pl⟩ = plHeader ⟨disk, fs, pl⟩ := by
  funext cpio off len
  unfold plHeader
  congr 1
  cases cpio.index with
  | none => rfl
  | some i => exact rd_noColor _ _ _ _ (fun f => rfl)

theorem plContent_noColor : plContent ⟨disk, fs.map (·.noColor), pl⟩ = plContent ⟨disk, fs, pl⟩ := by
  funext cpio off len s
  unfold plContent
  congr 1
  cases cpio.index with
  | none => rfl
  | some i => exact rd_noColor _ _ _ _ (fun f => rfl)

theorem plFill_noColor (fuel : Nat) : ∀ off len acc s,
    plFill ⟨disk, fs.map (·.noColor), pl⟩ fuel off len acc s = plFill ⟨disk, fs, pl⟩ fuel off len acc s := by
  induction fuel with
  | zero => intros; rfl
  | succ fuel ih =>
    intro off len acc s
    rw [plFill, plFill, plHeader_noColor, plContent_noColor]
    simp only [ih]

theorem plRun_noColor (cfg : CacheCfg) (a orig cnt : Nat) (fuel : Nat) : ∀ c id s saved,
    plRun cfg ⟨disk, fs.map (·.noColor), pl⟩ a orig cnt fuel c id s saved = plRun cfg ⟨disk, fs, pl⟩ a orig cnt fuel c id s saved := by
  induction fuel with
  | zero => intros; rfl
  | succ fuel ih =>
    intro c id s saved
    rw [plRun, plRun, plFill_noColor]
    simp only [ih]

theorem diskFiller_noColor (cfg : CacheCfg) : diskFiller cfg ⟨disk, fs.map (·.noColor), pl⟩ = diskFiller cfg ⟨disk, fs, pl⟩ := by
  funext c a id cnt
  unfold diskFiller plBlock
  rw [fsBlock_noColor, plSeek_noColor]
  simp only [plStart_noColor, plRun_noColor]

end

theorem applyLoop_noColor (d : Delta) (old : OldData) (fs : List FileInfo) (pl : List CpioFile) (cfg : CacheCfg) (cleanup : Nat)
    (add : Option Bytes) : applyLoop d old (fs.map (·.noColor)) pl cfg cleanup add = applyLoop d old fs pl cfg cleanup add := by
  unfold applyLoop
  simp only [stdStep_noColor, diskFiller_noColor]

theorem expandSeq_colors (H : Bytes → Bytes) {fs fs' : List FileInfo} (h : SameButColors fs fs') (algo : Nat)
    (check : Bytes → Bytes → Nat → Out Unit) (s : Bytes) : expandSeq H fs algo check s = expandSeq H fs' algo check s := by
  rw [← expandSeq_noColor H fs, h, expandSeq_noColor]

theorem applyLoop_colors (d : Delta) (old : OldData) {fs fs' : List FileInfo} (h : SameButColors fs fs') (pl : List CpioFile)
    (cfg : CacheCfg) (cleanup : Nat) (add : Option Bytes) : applyLoop d old fs pl cfg cleanup add = applyLoop d old fs' pl cfg cleanup add := by
  rw [← applyLoop_noColor d old fs, h, applyLoop_noColor]

end Drpm
