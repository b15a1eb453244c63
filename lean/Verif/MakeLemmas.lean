import Verif.ApplyLemmas
import Verif.Props.Diff
import Verif.Props.Format
import Verif.Props.Blocks
/-!
# Lemmas about making a delta and applying it
-/

namespace Drpm

theorem be32At_lt {b : Bytes} {v : Nat} (h : be32At b = .ok v) : v < 2^32 := by
  match b, h with
  | b0 :: b1 :: b2 :: b3 :: r, h =>
    have hk := (be32At_drop (b0 :: b1 :: b2 :: b3 :: r) 0 (by simp)).1
    rw [List.drop_zero, h] at hk
    cases hk
    exact (be32At_drop (b0 :: b1 :: b2 :: b3 :: r) 0 (by simp)).2

theorem fmtOffset_lt {header : Bytes} {v : Nat} (h : fmtOffset header = .ok v) : v < 2^32 := by
  unfold fmtOffset at h
  rw [Out.bind_eq_ok] at h
  obtain ⟨n, _, h⟩ := h
  have : ∀ n off, fmtOffsetLoop header n off = .ok v → v < 2^32 := by
    intro n
    induction n with
    | zero => intro off h; cases h
    | succ n ih =>
      intro off h
      rw [fmtOffsetLoop] at h
      split at h
      · rw [Out.bind_eq_ok] at h
        obtain ⟨t, _, h⟩ := h
        split at h
        · exact be32At_lt h
        · exact ih _ h
      · cases h
  exact this n 16 h

theorem RegionsOK.add_le {old new : Bytes} {addblk : Bool} :
    ∀ {rs : List DiffCopy} {add : Bytes} {p : Nat}, RegionsOK old new addblk rs add p → p ≤ new.length →
      add.length + p ≤ new.length ∧ (rs.map (·.newLen)).sum + p ≤ new.length ∧ (addblk = false → add = []) := by
  intro rs
  induction rs with
  | nil => intro add p h hp; obtain ⟨h1, rfl⟩ := h; simp; omega
  | cons r rs ih =>
    intro add p h hp
    obtain ⟨h1, h2, h3, rest, h4, h5⟩ := h
    obtain ⟨k1, k2, k3⟩ := ih h5 h3
    simp only [List.map_cons, List.sum_cons]
    cases addblk with
    | false =>
      simp only [Bool.false_eq_true, if_false] at h4
      obtain ⟨rfl, _⟩ := h4
      exact ⟨by omega, by omega, k3⟩
    | true =>
      simp only [if_true] at h4
      rw [h4, List.length_append, List.length_zipWith, slice_length (by omega), slice_length h2]
      exact ⟨by omega, by omega, fun h => by cases h⟩

/-- Everything about the diff of two payloads that the rest of making and applying needs. -/
theorem diff_facts (old new : Bytes) (addblk : Bool) (hn : 16 ≤ new.length) (hold : old.length < 2^63)
    (hnew : new.length < 2^63) (hsmall : old.length < 2^31 ∨ new.length < 2^31) :
    ∃ d ws, makeDiff old new addblk = .ok d ∧ CopiesInside old.length 0 d.ext ∧ EndsPositive 0 d.ext ∧
      Words d.ext ∧ (∀ p ∈ d.ext, p.1 ≠ 2^31) ∧ (d.ext.length < 2^32 → Words d.int) ∧
      d.intData.map List.length = d.int.map (·.2) ∧ d.intData.flatten.length ≤ new.length ∧
      d.addWrites.flatten.length ≤ new.length ∧ (addblk = false → d.addWrites.flatten = []) ∧
      reconWrites (flatNext old) () addblk d.ext d.int d.intData.flatten d.addWrites.flatten = .ok ws ∧
      ws.flatten = new := by
  obtain ⟨d, e, c1, c2, c3, c4, c5, c6⟩ := C07_made old new addblk hn hnew hsmall
  obtain ⟨d', e', hR, e2, e3⟩ := makeDiff_spec old new addblk hn hnew
  obtain rfl : d = d' := by rw [e] at e'; cases e'; rfl
  obtain ⟨a1, a2, a3⟩ := hR.add_le (by omega)
  have hb := hR.bounds
  have hlt : ∀ r ∈ d.regions, r.oldLen < 2^31 := fun r hr => by have := hb r hr; omega
  obtain ⟨s', k1, k2, _⟩ := regions_recon old new addblk hold hnew d.regions hlt _ _ _ _ hR e2 e3
  have hlen : d.intData.flatten.length ≤ new.length := by
    obtain ⟨ext, int, f1, _, _, _, f2, _⟩ := copiesLoop_walk old d.regions 0 0 (by omega)
      (fun r hr => by have := hb r hr; omega)
    unfold createDiffCopies at e2
    rw [f1] at e2
    simp only [Out.ok.injEq, Prod.mk.injEq] at e2
    obtain ⟨_, rfl⟩ := e2
    rw [List.length_flatten, c6]
    have : (d.int.map (·.2)) = d.int.map Prod.snd := rfl
    rw [this, f2]
    omega
  exact ⟨d, s'.out, e, c1, c2, c3, c4, c5, c6, hlen, by omega, a3, by unfold reconWrites; rw [k1]; rfl, k2⟩

/-! ## Reading back the add block -/

theorem openAdd_packed (dec : Decoder) (z : Bytes) (c : Comp) (hc : c ≠ .none)
    (h : 8 ≤ z.length) (hm : magicBytes c <+: z) : openAdd dec z = .ok (some (dec c z)) := by
  obtain ⟨m, e, hd⟩ := detect_iff z h
  have := (hd c hc).2 hm
  unfold openAdd
  rw [if_neg (by omega), if_neg (by omega), e, Out.bind_ok]
  subst this
  revert hc
  cases detectComp m <;> intro hc <;> first | rfl | exact absurd rfl hc

/-! ## Applying -/

theorem replaceSig_of {σ : Type} {env : ApplyEnv σ} {ls : Bytes} {m : Option Bytes} (h1 : 112 ≤ ls.length)
    (h2 : slice ls 96 4 = [0x8E, 0xAD, 0xE8, 0x01]) (h3 : env.blobOk (word ls 104) (word ls 108) = true)
    (h4 : 112 + 16 * word ls 104 + word ls 108 ≤ ls.length)
    (h5 : env.importSig (slice ls 104 (8 + 16 * word ls 104 + word ls 108)) = some (.ok m)) :
    replaceSig env ls = .ok (.ok m) := by
  unfold replaceSig
  rw [if_neg (by omega), rdBlk_ok (by omega), Out.bind_ok]
  rw [h2, if_neg (by simp)]
  rw [(be32At_drop ls 104 (by omega)).1, Out.bind_ok, (be32At_drop ls 108 (by omega)).1, Out.bind_ok]
  rw [if_neg (by rw [h3]; simp), rdBlk_ok (by omega), Out.bind_ok]
  change (match env.importSig (slice ls 104 (8 + 16 * word ls 104 + word ls 108)) with
            | none => Out.err Err.format
            | some m => Out.ok m) = _
  rw [h5]

/-- The compressor produces the payload of the package from its archive, however the archive is cut. -/
def Reproduces {σ : Type} (env : ApplyEnv σ) (comp level : Nat) (archive payload : Bytes) : Prop :=
  if comp = 0 then payload = archive
  else ∀ ps, ps.flatten = archive → [] ∉ ps →
    encodeAll (env.enc comp level) (env.enc comp level).init ps = some payload

theorem compressNew_ok {σ : Type} {env : ApplyEnv σ} {d : Delta} {f0 pre archive payload : Bytes} {ws : List Bytes}
    (hw : ws.flatten = pre ++ archive) (hp : pre.length = d.tgtHeaderLen)
    (hr : Reproduces env d.tgtComp d.tgtCompLevel archive payload) :
    compressNew env d f0 ws = .ok (pre ++ payload, f0 ++ (pre ++ payload)) := by
  have ht : ws.flatten.take d.tgtHeaderLen = pre := by rw [hw, ← hp, List.take_left]
  have hdr : ws.flatten.drop d.tgtHeaderLen = archive := by rw [hw, ← hp, List.drop_left]
  have hlen : d.tgtHeaderLen ≤ ws.flatten.length := by rw [hw, List.length_append]; omega
  unfold compressNew
  unfold Reproduces at hr
  split
  · rename_i hc
    rw [if_pos hc] at hr
    rw [wrAll_exact plainEnc _ f0 ws payload hlen (fun ps h1 _ => by
      rw [show (plainEnc.init : Unit) = () from rfl, encodeAll_plain, h1, hdr, hr]), ht]
  · rename_i hc
    rw [if_neg hc] at hr
    rw [wrAll_exact _ _ f0 ws payload hlen (fun ps h1 h2 => hr ps (by rw [h1, hdr]) h2), ht]

theorem planDiff_ok {σ : Type} {env : ApplyEnv σ} {file : Bytes} {d : Delta} {old : OldData} {files : List FileInfo}
    {places : List CpioFile} {cleanup : Nat} {cfg : CacheCfg} {add : Option Bytes} {ws : List Bytes}
    {pre archive payload hdr : Bytes}
    (h1 : d.intCount = d.ints.length ∧ d.extCount = d.exts.length)
    (h2 : blocksCreate d.extDataLen d.exts = .ok cfg) (h3 : openAdd env.dec d.addData = .ok add)
    (h4 : applyLoop d old files places cfg cleanup add = .ok ws) (h5 : ws.flatten = pre ++ archive)
    (h6 : pre.length = d.tgtHeaderLen) (h7 : strmOpen d.tgtComp d.tgtCompLevel = .ok ())
    (h8 : applyHeader env file d = .ok hdr) (h9 : Reproduces env d.tgtComp d.tgtCompLevel archive payload) :
    planDiff env file d old files places cleanup =
      .ok (.ok (d.tgtLeadsig ++ (hdr ++ pre ++ payload),
        (if noFullMd5 d then [] else d.tgtLeadsig) ++ (hdr ++ pre ++ payload))) := by
  unfold planDiff countsFit
  rw [if_pos h1, Out.bind_ok, h2, Out.bind_ok, h3, Out.bind_ok]
  refine congrArg Out.ok ?_
  unfold applyWrite
  rw [h8, Out.bind_ok, h7, Out.bind_ok, h4, Out.bind_ok, compressNew_ok h5 h6 h9, Out.bind_ok]
  simp only [List.append_assoc]

/-- Applying succeeds with a file that has the recorded MD5s. -/
theorem applyTo_ok {σ : Type} {env : ApplyEnv σ} {file : Bytes} {d : Delta} {src : OldSrc} {cleanup : Nat}
    {p : Pkg} {old : OldData} {files : List FileInfo} {places : List CpioFile} {m : Option Bytes} {ls rest : Bytes}
    (h1 : readDelta env.dec env.rpmHead file = .ok d) (h2 : applyOld env file d src = .ok (p, old))
    (h3 : p.nevr = .ok d.srcNevr) (h4 : applyPlaces env d p = .ok (files, places))
    (h5 : replaceSig env d.tgtLeadsig = .ok (.ok m))
    (h6 : planBody env file d old files places cleanup =
      .ok (.ok (ls ++ rest, (if noFullMd5 d then [] else ls) ++ rest)))
    (h7 : d.tgtMd5 = env.H (ls ++ rest)) (h8 : m = none ∨ m = some (env.H rest)) :
    applyTo env (.ok file) src cleanup = (.ok (), .written (ls ++ rest)) := by
  unfold applyTo planApply
  rw [Out.bind_ok, h1, Out.bind_ok, h2, Out.bind_ok]
  simp only [sameNevr]
  rw [h3, Out.bind_ok, if_neg (by simp), Out.bind_ok, h4, Out.bind_ok]
  simp only
  rw [h5, Out.bind_ok, h6, Out.bind_ok]
  simp only [finishApply, finalCheck]
  cases hn : noFullMd5 d with
  | false =>
    simp only [Bool.false_eq_true, if_false]
    rw [h7, if_neg (by simp)]
  | true =>
    simp only [if_true, List.nil_append, Out.bind_ok]
    rcases h8 with rfl | rfl
    · rfl
    · simp

theorem planBody_diff {σ : Type} {env : ApplyEnv σ} {file : Bytes} {d : Delta} {old : OldData} {files : List FileInfo}
    {places : List CpioFile} {cleanup : Nat} (h : isNoDiff d = false) :
    planBody env file d old files places cleanup = planDiff env file d old files places cleanup := by
  unfold planBody
  rw [h]

/-- A delta without copies does not reconstruct anything. -/
theorem recon_nil {σ : Type} (next : BlockProvider σ) (b : σ) (useAdd : Bool) (data add : Bytes) {ws : List Bytes}
    (h : reconWrites next b useAdd [] [] data add = .ok ws) : ws = [] := by
  unfold reconWrites at h
  simp only [reconLoop, Out.bind_ok] at h
  cases h
  rfl

theorem makePair_eq {menv : MakeEnv} {o : Opts Bytes} {old new : Rpm} {l off : Nat} {on nn z : Bytes} {i : DiffIn}
    {df : Diff} (h1 : new.isCpio = .ok true) (h2 : new.level = .ok l) (h3 : old.nevr = .ok on)
    (h4 : targetNevr o new = .ok nn) (h5 : diffInputs menv o old new = .ok i) (h6 : fmtOffset i.header = .ok off)
    (h7 : makeDiff i.old i.new o.addblk = .ok df) (h8 : addBlock menv o df.addWrites = .ok z) :
    makePair menv o old new = .ok (fillDelta menv o new l on nn i off df z, i.header, (deltaComp o new l).2) := by
  unfold makePair requireCpio
  rw [h1]
  simp only [if_true, Out.bind_ok, h2, h3, h4, h5, h6, h7, h8]

end Drpm
