import Verif.RequestsLemmas
/-!
# C103: the memory asked for while a delta is read
-/

namespace Drpm

/-- The readers that list the requests give the result of the readers all other theorems are about. -/
theorem C103_same (dec : Decoder) (rpmHead : Bytes → Out (Nat × Nat)) (file : Bytes) :
    (readDeltaM dec rpmHead file).2 = readDelta dec rpmHead file :=
  readDeltaM_same dec rpmHead file

/-- C103 for deltas that are accepted: all the blocks of memory asked for while the delta is read are
    together not larger than the file and what its compressed part expands to. -/
theorem C103_read (dec : Decoder) (rpmHead : Bytes → Out (Nat × Nat)) (file : Bytes) (E : Nat)
    (hE : ∀ c k, (dec c (file.drop k)).length ≤ E) (d : Delta) (h : readDelta dec rpmHead file = .ok d) :
    (readDeltaM dec rpmHead file).1.sum ≤ file.length + E :=
  (readDeltaM_requests dec rpmHead file E hE).1 d (by rw [readDeltaM_same, h])

/-- C103 for any other file, as far as it holds: the same is true of all blocks but the one asked for
    last, which is given back without having been filled. -/
theorem C103_partial (dec : Decoder) (rpmHead : Bytes → Out (Nat × Nat)) (file : Bytes) (E : Nat)
    (hE : ∀ c k, (dec c (file.drop k)).length ≤ E) (h : ∀ d, readDelta dec rpmHead file ≠ .ok d) :
    ∃ kept last, (readDeltaM dec rpmHead file).1 = kept ++ last ∧ last.length ≤ 1 ∧
      kept.sum ≤ file.length + E ∧ ∀ n ∈ last, n < 2^64 :=
  (readDeltaM_requests dec rpmHead file E hE).2 (by rw [readDeltaM_same]; exact h)

/-- C103 does not hold in general: the lengths in a delta are believed before anything is read. Every
    size below 4 GiB is asked for because of some file of 16 bytes, which is then refused. -/
theorem C103_violated (dec : Decoder) (rpmHead : Bytes → Out (Nat × Nat)) (n : Nat) (h0 : 0 < n)
    (hn : n < 2^32) : ∃ file, file.length = 16 ∧ readDelta dec rpmHead file = .err .format ∧
      (readDeltaM dec rpmHead file).1 = [1, n] := by
  refine ⟨[0x64, 0x72, 0x70, 0x6D, 0x44, 0x4C, 0x54, 0x33, 0, 0, 0, 0] ++ createBe32 n, by simp [createBe32], ?_⟩
  have hb : fileBe32 (createBe32 n) = .ok (n, []) := by
    have hl : (createBe32 n).length = 4 := by simp [createBe32]
    unfold fileBe32 sysRead
    rw [hl, if_neg (by omega), if_neg (by omega)]
    rw [Out.bind_ok, show (createBe32 n).take 4 = createBe32 n ++ [] by rw [List.take_of_length_le (by omega)]; simp,
      be32At_createBe32 n hn, Out.bind_ok]
    rw [List.drop_of_length_le (by omega)]
  have hs : sysRead n n [] = .err .format := by
    unfold sysRead
    rw [if_neg (by simp), if_pos (by simp; omega)]
  have key : readDeltaM dec rpmHead
      ([0x64, 0x72, 0x70, 0x6D, 0x44, 0x4C, 0x54, 0x33, 0, 0, 0, 0] ++ createBe32 n) = ([1, n], .err .format) := by
    have hadd : fileAddM (createBe32 n) = ([n], .err .format) := by
      unfold fileAddM
      show PM.bind (PM.of fileBe32) _ _ = _
      unfold PM.bind PM.of
      simp only [hb]
      show ([] ++ ([n] ++ []), sysRead n n []) = _
      rw [hs]; rfl
    have hv : fileBe32 ([0x64, 0x72, 0x70, 0x6D, 0x44, 0x4C, 0x54, 0x33, 0, 0, 0, 0] ++ createBe32 n) =
      .ok (0x6472706D, [0x44, 0x4C, 0x54, 0x33, 0, 0, 0, 0] ++ createBe32 n) := rfl
    have hh : rdRpmonlyHeadM { Delta.zero with type := .rpmonly }
        ([0x44, 0x4C, 0x54, 0x33, 0, 0, 0, 0] ++ createBe32 n) = ([1, n], .err .format) := by
      have hn : (do
          let add ← fileAddM
          pure ({ Delta.zero with type := .rpmonly, tgtNevr := [], addData := add } : Delta) : PM Delta)
          (createBe32 n) = ([n], .err .format) := by
        show PM.bind _ _ _ = _
        unfold PM.bind
        simp only [hadd]
      show ([] ++ (([] ++ ([1] ++ [])) ++ ((do
          let add ← fileAddM
          pure ({ Delta.zero with type := .rpmonly, tgtNevr := [], addData := add } : Delta) : PM Delta)
          (createBe32 n)).1), ((do
          let add ← fileAddM
          pure ({ Delta.zero with type := .rpmonly, tgtNevr := [], addData := add } : Delta) : PM Delta)
          (createBe32 n)).2) = _
      rw [hn]; rfl
    unfold readDeltaM
    simp only [hv, if_true, hh]
  exact ⟨by rw [← readDeltaM_same, key], by rw [key]⟩

/-- An rpm-only delta of 228 bytes that announces 2^64 - 1 bytes of internal data. -/
def greedyDelta : Bytes :=
  [0x64, 0x72, 0x70, 0x6D, 0x44, 0x4C, 0x54, 0x33] ++ List.replicate 8 0 ++
  [0x44, 0x4C, 0x54, 0x33] ++ List.replicate 4 0 ++ [0, 0, 0, 16] ++ List.replicate 32 0 ++ List.replicate 12 0 ++ [0, 0, 0, 1] ++ List.replicate 4 0 ++
  [0, 0, 0, 112] ++ List.replicate 112 0 ++ List.replicate 24 0 ++ List.replicate 8 255

/-- The delta up to the compressed part. -/
theorem greedy_head (dec : Decoder) (rpmHead : Bytes → Out (Nat × Nat)) (rest : Bytes) :
    readDeltaM dec rpmHead (greedyDelta.take 16 ++ rest) =
      ([1, 0] ++ (openRestM dec { Delta.zero with type := .rpmonly } rest).1,
        (openRestM dec { Delta.zero with type := .rpmonly } rest).2) := by
  have h : greedyDelta.take 16 = [0x64, 0x72, 0x70, 0x6D, 0x44, 0x4C, 0x54, 0x33, 0, 0, 0, 0, 0, 0, 0, 0] := by
    decide +kernel
  rw [h]
  rfl

/-- The compressed part is not compressed. -/
theorem plain_rest (dec : Decoder) (d : Delta) (z : Bytes) (hl : 8 ≤ z.length)
    (h : Out.okAnd (be64At z) (fun m => detectComp m == .none) = true) :
    openRestM dec d z = ((rdRestM { d with comp := Comp.none.code } z).1,
      (rdRestM { d with comp := Comp.none.code } z).2 >>= fun r => .ok r.1) := by
  have e : openStream dec z = .ok (.none, z) := by
    unfold openStream
    rw [if_neg (by omega)]
    cases hm : be64At z with
    | ok m =>
      rw [hm] at h
      have hd : detectComp m = .none := by simpa [Out.okAnd] using h
      rw [Out.bind_ok, hd]
    | err x => rw [hm] at h; cases h
    | ub => rw [hm] at h; cases h
    | loop => rw [hm] at h; cases h
  unfold openRestM
  rw [e]

/-- C103 does not hold in general: the length of the internal data has 64 bits, and even all of the
    memory there can be is asked for. -/
theorem C103_violated_all (dec : Decoder) (rpmHead : Bytes → Out (Nat × Nat)) :
    greedyDelta.length = 228 ∧ readDelta dec rpmHead greedyDelta = .err .format ∧
      (readDeltaM dec rpmHead greedyDelta).1 = [1, 0, 1, 16, 112, 2^64 - 1] := by
  have key : readDeltaM dec rpmHead greedyDelta = ([1, 0, 1, 16, 112, 2^64 - 1], .err .format) := by
    rw [← List.take_append_drop 16 greedyDelta, greedy_head, plain_rest _ _ _ (by decide +kernel) (by decide +kernel)]
    have h1 : (rdRestM { Delta.zero with type := .rpmonly, comp := Comp.none.code } (greedyDelta.drop 16)).1 =
      [1, 16, 112, 2^64 - 1] := by decide +kernel
    have h2 : (rdRestM { Delta.zero with type := .rpmonly, comp := Comp.none.code } (greedyDelta.drop 16)).2 =
      .err .format := by decide +kernel
    rw [h1, h2]
    rfl
  exact ⟨by decide +kernel, by rw [← readDeltaM_same, key], by rw [key]⟩

/-- The same delta without internal data. -/
def modestDelta : Bytes := greedyDelta.take 220 ++ List.replicate 8 0

/-- The hypotheses of `C103_read` are met: this delta is accepted, and the requests amount to 130
    bytes. (Its compressed part is not compressed, whatever the decoders are.) -/
example : Out.okAnd (readDelta (fun _ z => z) (fun _ => .err .format) modestDelta) (fun _ => true) = true ∧
    (∀ c k, ((fun _ z => z : Decoder) c (modestDelta.drop k)).length ≤ 228) ∧
    (readDeltaM (fun _ z => z) (fun _ => .err .format) modestDelta).1 = [1, 0, 1, 16, 112] := by
  refine ⟨by decide +kernel, fun c k => ?_, by decide +kernel⟩
  show (modestDelta.drop k).length ≤ 228
  have : modestDelta.length = 228 := by decide +kernel
  rw [List.length_drop]; omega

end Drpm
