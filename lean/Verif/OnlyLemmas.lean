import Verif.HistoryLemmas
import Verif.PrelinkFill
import Verif.Check
import Verif.Apply
/-!
# Which files are looked at
-/

namespace Drpm

/-- The two disks agree about one name. -/
def SameThere (d d' : Disk) (name : Bytes) : Prop := d.get name = d'.get name ∧ d.undo name = d'.undo name

/-- The two disks agree about every file that may be opened: for an entry with contents that is not a
    link, the file of the entry and the file that `open_new_file` finds for it. -/
def SameWhere (d d' : Disk) (files : List FileInfo) (places : List CpioFile) : Prop :=
  ∀ (k i : Nat) (cpio : CpioFile) (f : FileInfo), rd places k = .ok cpio → cpio.index = some i → rd files i = .ok f →
    isLnk f = false → 0 < cpio.contentLen →
    SameThere d d' f.name ∧ ∀ (c : CpioFile) (j : Nat) (g : FileInfo), rd places i = .ok c → c.index = some j → rd files j = .ok g →
      SameThere d d' g.name

variable {d d' : Disk} {files : List FileInfo} {places : List CpioFile}

theorem openNew_only (s : FsSt) (i : Nat)
    (h : ∀ (c : CpioFile) (j : Nat) (g : FileInfo), rd places i = .ok c → c.index = some j → rd files j = .ok g → SameThere d d' g.name) :
    openNew ⟨d, files, places⟩ s i = openNew ⟨d', files, places⟩ s i := by
  unfold openNew
  refine Out.bind_ext (fun c hc => ?_)
  cases hj : c.index with
  | none => rfl
  | some j =>
    refine Out.bind_ext (fun g hg => ?_)
    simp only
    rw [(h c j g hc hj hg).1]

theorem needOpen_only (s : FsSt) (i : Nat)
    (h : ∀ (c : CpioFile) (j : Nat) (g : FileInfo), rd places i = .ok c → c.index = some j → rd files j = .ok g → SameThere d d' g.name) :
    needOpen ⟨d, files, places⟩ s i = needOpen ⟨d', files, places⟩ s i := by
  have hg : ∀ s i, getOpen ⟨d, files, places⟩ s i = getOpen ⟨d', files, places⟩ s i := fun _ _ => rfl
  unfold needOpen
  rw [hg]
  refine Out.bind_ext ?_
  rintro ⟨a, s⟩ _
  cases a with
  | some a => rfl
  | none =>
    simp only
    rw [openNew_only s i h]
    rfl

theorem fsContent_only (s : FsSt) {k i : Nat} {cpio : CpioFile} (h : SameWhere d d' files places) (hk : rd places k = .ok cpio)
    (hi : cpio.index = some i) (fileOff len : Nat) (hc : fileOff < cpio.contentLen) :
    fsContent ⟨d, files, places⟩ s cpio i fileOff len = fsContent ⟨d', files, places⟩ s cpio i fileOff len := by
  unfold fsContent
  refine Out.bind_ext (fun f hf => ?_)
  cases hl : isLnk f with
  | true => rfl
  | false =>
    simp only [Bool.false_eq_true, if_false]
    split
    · unfold fsFile
      rw [needOpen_only s i (h k i cpio f hk hi hf hl (by omega)).2]
    · rfl

theorem fsLoop_only (h : SameWhere d d' files places) : ∀ fuel (s : FsSt) (k off len : Nat) (acc : Bytes),
    fsLoop ⟨d, files, places⟩ fuel s k off len acc = fsLoop ⟨d', files, places⟩ fuel s k off len acc := by
  intro fuel
  induction fuel with
  | zero => intros; rfl
  | succ fuel ih =>
    intro s k off len acc
    unfold fsLoop
    split
    · rfl
    · refine Out.bind_ext (fun cpio hk => ?_)
      simp only
      split
      · refine Out.bind_ext (fun b _ => ih _ _ _ _ _)
      · cases hi : cpio.index with
        | none => rfl
        | some i =>
          simp only
          split
          · rw [fsContent_only s h hk hi _ _ (by omega)]
            refine Out.bind_ext (fun g _ => ?_)
            cases g with
            | prelinked s => rfl
            | bytes b s => exact ih _ _ _ _ _
          · refine Out.bind_ext (fun s _ => ih _ _ _ _ _)

theorem fsBlock_only (h : SameWhere d d' files places) (s : FsSt) (id : Nat) :
    fsBlock ⟨d, files, places⟩ s id = fsBlock ⟨d', files, places⟩ s id := by
  unfold fsBlock
  refine Out.bind_ext (fun i _ => Out.bind_ext (fun i _ => Out.bind_ext (fun s _ => fsLoop_only h _ _ _ _ _ _)))

theorem plHere_only (h : SameWhere d d' files places) (id k : Nat) (pre : Option Bool) :
    plHere ⟨d, files, places⟩ id k pre = plHere ⟨d', files, places⟩ id k pre := by
  unfold plHere
  refine Out.bind_ext (fun cpio hk => ?_)
  cases hi : cpio.index with
  | none => rfl
  | some i =>
    simp only
    split
    · rfl
    · rename_i hc
      refine Out.bind_ext (fun f hf => ?_)
      cases hl : isLnk f with
      | true => rfl
      | false =>
        simp only [Bool.false_eq_true, if_false]
        unfold plOpen
        simp only
        rw [(h k i cpio f hk hi hf hl (by omega)).1.1]

theorem plStart_only (h : SameWhere d d' files places) : ∀ fuel (id k : Nat) (pre : Option Bool),
    plStart ⟨d, files, places⟩ fuel id k pre = plStart ⟨d', files, places⟩ fuel id k pre := by
  intro fuel
  induction fuel with
  | zero => intros; rfl
  | succ fuel ih =>
    intro id k pre
    unfold plStart
    refine Out.bind_ext (fun k _ => ?_)
    rw [plHere_only h]
    refine Out.bind_ext (fun o _ => ?_)
    cases o with
    | some s => rfl
    | none => exact Out.bind_ext (fun cpio _ => ih _ _ _)

theorem plFile_only {f : FileInfo} (h : SameThere d d' f.name) (cpio : CpioFile) (fileOff len : Nat) (s : PlSt) :
    plFile ⟨d, files, places⟩ f cpio fileOff len s = plFile ⟨d', files, places⟩ f cpio fileOff len s := by
  have hn : plNeed ⟨d, files, places⟩ f s = plNeed ⟨d', files, places⟩ f s := by
    unfold plNeed
    simp only [h.1, h.2]
  unfold plFile plRead
  rw [hn]

theorem plFill_only (h : SameWhere d d' files places) : ∀ fuel (off len : Nat) (acc : Bytes) (s : PlSt),
    plFill ⟨d, files, places⟩ fuel off len acc s = plFill ⟨d', files, places⟩ fuel off len acc s := by
  intro fuel
  induction fuel with
  | zero => intros; rfl
  | succ fuel ih =>
    intro off len acc s
    unfold plFill
    split
    · rfl
    · refine Out.bind_ext (fun s _ => Out.bind_ext (fun cpio hk => ?_))
      have e : ∀ off len, plContent ⟨d, files, places⟩ cpio off len s = plContent ⟨d', files, places⟩ cpio off len s := by
        intro off len
        unfold plContent
        split
        · rfl
        · cases hi : cpio.index with
          | none => rfl
          | some i =>
            refine Out.bind_ext (fun f hf => ?_)
            cases hl : isLnk f with
            | true => rfl
            | false =>
              simp only [Bool.false_eq_true, if_false]
              split
              · exact plFile_only (h s.k i cpio f hk hi hf hl (by omega)).1 _ _ _ _
              · rfl
      refine Out.bind_ext (fun hd _ => ?_)
      rw [e]
      exact Out.bind_ext (fun x _ => ih _ _ _ _)

theorem plRun_only (cfg : CacheCfg) (h : SameWhere d d' files places) (a orig cnt : Nat) : ∀ fuel (c : Cache FsSt) (id : Nat) (s : PlSt) (saved : Option Bytes),
    plRun cfg ⟨d, files, places⟩ a orig cnt fuel c id s saved = plRun cfg ⟨d', files, places⟩ a orig cnt fuel c id s saved := by
  intro fuel
  induction fuel with
  | zero => intros; rfl
  | succ fuel ih =>
    intro c id s saved
    unfold plRun
    rw [plFill_only h]
    refine Out.bind_ext (fun x _ => Out.bind_ext (fun c _ => Out.bind_ext (fun stop _ => ?_)))
    split
    · rfl
    · exact ih _ _ _ _

theorem diskFiller_only (cfg : CacheCfg) (h : SameWhere d d' files places) :
    diskFiller cfg ⟨d, files, places⟩ = diskFiller cfg ⟨d', files, places⟩ := by
  funext c a id cnt
  unfold diskFiller
  rw [fsBlock_only h]
  refine Out.bind_ext ?_
  rintro ⟨o, s⟩ _
  cases o with
  | block b => rfl
  | prelink k =>
    simp only
    unfold plBlock
    rw [plStart_only h]
    refine Out.bind_ext (fun x _ => ?_)
    have hs : plSeek ⟨d, files, places⟩ x.1 x.2 = plSeek ⟨d', files, places⟩ x.1 x.2 := rfl
    show (plSeek ⟨d, files, places⟩ x.1 x.2 >>= _) = (plSeek ⟨d', files, places⟩ x.1 x.2 >>= _)
    rw [hs]
    exact Out.bind_ext (fun s _ => plRun_only cfg h _ _ _ _ _ _ _ _)

end Drpm
