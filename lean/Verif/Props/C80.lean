import Verif.Gsf.Follow
import Verif.Props.C73
import Verif.Props.C70

/-!
# C80: a file can be read while it is written

The specification is `meet`: what a reader finds when the file ends somewhere, in terms of where the file ends and how long the blocks
of the grains are.
-/

namespace Verif.Props

open Verif Verif.Gsf Verif.Session

/-! ## Specification -/

/-- What `next()` is to give: the end of the generator, or a grain of which `there` or more bytes of data are in the file. -/
inductive Found where
  | stop
  | grain (localId : Nat) (g : Grain) (there : Nat)

/-- The size of a grain's data. -/
def dataSize (g : Grain) : Nat := (g.data.getD []).length

/-- A reader in front of the grains `gs` calls `next()` when the file holds `room` bytes from there on.  The second result is the list of
grains it is in front of afterwards.  Nothing is promised if the file ends within the eight bytes with which a block begins.  If the file
ends in a grain before its data begins, that grain is passed over. -/
def meet (major : Nat) (ids : Option (List Nat)) : List (Nat × Grain) → Nat → Option (Found × List (Nat × Grain))
  | [], room => if 0 < room ∧ room < 8 then none else some (.stop, [])
  | x :: gs, room =>
    let size := (encodeGrain major x.1 x.2).length
    if room = 0 then some (.stop, x :: gs)
    else if room < 8 then none
    else if chosen ids x.1 = false then meet major ids gs (room - size)
    else if room + dataSize x.2 < size then some (.stop, gs)
    else some (.grain x.1 x.2 (room + dataSize x.2 - size), gs)

/-- The file holds the head of `f`, or another one of that length, and then a first part of the grains and the end of `f`. -/
def Growing (f : FileSpec) (file : Bytes) : Prop :=
  grainsEnd f 0 ≤ file.length ∧
    file.drop (grainsEnd f 0) <+: f.grains.flatMap (fun x => encodeGrain f.major x.1 x.2) ++ terminator

/-- What a reader in front of `rest` is to be given by its calls. -/
def foundBy (f : FileSpec) : List (Nat × Grain) → List (Opts × Bytes) → Option (List Found)
  | _, [] => some []
  | rest, (o, file) :: calls =>
    match meet f.major o.localIds rest (file.length - grainsEnd f (f.grains.length - rest.length)) with
    | none => none
    | some (x, rest') => (foundBy f rest' calls).map (x :: ·)

/-- The bytes of data a program gets from a grain, when `there` bytes of them are in the file it takes them from. -/
def dataThere (mode : Mode) (g : Grain) (there : Nat) : Option Bytes :=
  if mode = .loadNever then none else g.payload.map (fun d => d.take there)

/-- The answer of `next()` is what was to be found.  The data can be taken at any later time, when the file is `later`: data whose
loading is deferred is what is in the file then, other data is what was in the file when the grain was delivered. -/
def Gives (f : FileSpec) (o : Opts) (file : Bytes) : Pulled → Found → Prop
  | .stop, .stop => True
  | .item it, .grain lid g there =>
    it.info = g.toMeta f.major ∧ it.localId = lid ∧
      ∀ later, Growing f later → file.length ≤ later.length →
        it.data.load later = dataThere o.mode g (if o.defers then there + (later.length - file.length) else there)
  | _, _ => False

def GivesAll (f : FileSpec) : List (Opts × Bytes) → List Pulled → List Found → Prop
  | [], [], [] => True
  | (o, file) :: calls, a :: as, b :: bs => Gives f o file a b ∧ GivesAll f calls as bs
  | _, _, _ => False

/-! ## Proofs -/

namespace Follow80

open Verif.Gsf.Follow

theorem pull_enter_eof (o : Opts) (file : Bytes) (h : Hdr) (p : Nat) (hp : file.length ≤ p) :
    pull o file h false p = (.stop, h, some p) := by
  have he : enter none false ⟨0, file⟩ p = .error .eof := enter_eof (Nat.zero_le _) (by simp [Stream.fin]; omega)
  have : grainsStep o h false ⟨0, file⟩ p = .error .eof := by
    unfold grainsStep
    rw [if_neg (by simp), Rd.bind_of_error he]
  rw [pull_eq, this]
  simp only [eofPos]
  rw [if_neg (by simp), he]
  simp only [Stream.fin, Nat.zero_add]
  rw [Nat.max_eq_left hp]

/-- Where the reader is: in front of the grains `rest`, or behind the end of the file. -/
def Here (f : FileSpec) (rest : List (Nat × Grain)) (p : Nat) : Prop :=
  (∃ pre, f.grains = pre ++ rest ∧ p = grainsEnd f pre.length) ∨
    (rest = [] ∧ p = grainsEnd f f.grains.length + 8)

theorem grainsEnd_pre (f : FileSpec) {pre rest : List (Nat × Grain)} (h : f.grains = pre ++ rest) :
    grainsEnd f pre.length = grainsEnd f 0 + (pre.flatMap (fun x => encodeGrain f.major x.1 x.2)).length := by
  unfold grainsEnd
  rw [h, List.take_left]
  simp

theorem grainsEnd_next (f : FileSpec) {pre rest : List (Nat × Grain)} {x} (h : f.grains = pre ++ x :: rest) :
    grainsEnd f (pre ++ [x]).length = grainsEnd f pre.length + (encodeGrain f.major x.1 x.2).length := by
  rw [grainsEnd_pre f (pre := pre ++ [x]) (rest := rest) (by rw [h]; simp), grainsEnd_pre f h]
  simp
  omega

theorem growing_drop {f : FileSpec} {file : Bytes} (h : Growing f file) {pre rest : List (Nat × Grain)} (hg : f.grains = pre ++ rest) :
    file.drop (grainsEnd f pre.length) <+: rest.flatMap (fun x => encodeGrain f.major x.1 x.2) ++ terminator := by
  obtain ⟨h1, t, ht⟩ := h
  rw [grainsEnd_pre f hg, ← List.drop_drop]
  rw [hg, List.flatMap_append, List.append_assoc] at ht
  have := congrArg (List.drop (pre.flatMap (fun x => encodeGrain f.major x.1 x.2)).length) ht
  rw [List.drop_left] at this
  rw [← this]
  rw [List.drop_append]
  exact List.prefix_append _ _

theorem growing_len {f : FileSpec} {file : Bytes} (h : Growing f file) : file.length ≤ grainsEnd f f.grains.length + 8 := by
  have h1 := h.2.length_le
  have h2 := grainsEnd_pre f (pre := f.grains) (rest := []) (by simp)
  have h3 := h.1
  rw [List.length_append, show terminator.length = 8 from rfl, List.length_drop] at h1
  omega

theorem load_eq {f : FileSpec} {x : Nat × Grain} {pre rest : List (Nat × Grain)} (hg : f.grains = pre ++ x :: rest)
    (hx : x.2.Ok f.major) {file : Bytes} (hf : Growing f file) :
    ((file.drop (grainsEnd f pre.length + (graiHead f.major x.1 x.2).length)).take (dataSize x.2)) =
      (x.2.data.getD []).take (file.length - (grainsEnd f pre.length + (graiHead f.major x.1 x.2).length)) := by
  have h1 := growing_drop hf hg
  rw [List.flatMap_cons, encodeGrain_eq _ _ _ hx.wf, grai_split, List.append_assoc, List.append_assoc] at h1
  obtain ⟨t, ht⟩ := h1
  have h2 := congrArg (List.drop (graiHead f.major x.1 x.2).length) ht
  rw [List.drop_left] at h2
  rw [← List.drop_drop]
  generalize hL : (graiHead f.major x.1 x.2).length = L at *
  generalize hR : rest.flatMap (fun x => encodeGrain f.major x.1 x.2) ++ terminator = R at *
  have hpre : (file.drop (grainsEnd f pre.length)).drop L <+: x.2.data.getD [] ++ R := by
    rw [← h2, List.drop_append]
    exact List.prefix_append _ _
  have hlen : ((file.drop (grainsEnd f pre.length)).drop L).length = file.length - (grainsEnd f pre.length + L) := by
    simp only [List.length_drop]; omega
  obtain ⟨u, hu⟩ := hpre
  rw [← hlen]
  generalize (file.drop (grainsEnd f pre.length)).drop L = D at *
  unfold dataSize
  generalize x.2.data.getD [] = d at *
  have e1 : D = (d ++ R).take D.length := by rw [← hu, List.take_left]
  rw [e1, List.take_take]
  rw [List.take_append_of_le_length (Nat.min_le_left _ _)]
  simp only [List.length_take]
  have : min D.length (List.length (d ++ R)) = D.length := by
    rw [← hu]; simp
  rw [this]
  rw [Nat.min_comm]
  rcases Nat.le_total D.length d.length with h | h
  · rw [Nat.min_eq_left h]
  · rw [Nat.min_eq_right h, List.take_length, List.take_of_length_le h]

theorem drops_chosen (o : Opts) (lid : Nat) : o.drops lid = !chosen o.localIds lid := by
  unfold Opts.drops chosen
  cases o.localIds <;> rfl

theorem gives_grain {f : FileSpec} {x : Nat × Grain} {pre rest : List (Nat × Grain)} (hg : f.grains = pre ++ x :: rest)
    (hx : x.2.Ok f.major) {file : Bytes} (hf : Growing f file) (o : Opts) (room : Nat)
    (hroom : room = file.length - grainsEnd f pre.length)
    (hr : (encodeGrain f.major x.1 x.2).length ≤ room + dataSize x.2) (h0 : room ≠ 0) :
    Gives f o file (.item ⟨x.2.toMeta f.major, dataIn o ⟨0, file⟩ (grainsEnd f pre.length + (graiHead f.major x.1 x.2).length)
      (x.2.data.getD []), x.1⟩) (.grain x.1 x.2 (room + dataSize x.2 - (encodeGrain f.major x.1 x.2).length)) := by
  refine ⟨rfl, rfl, ?_⟩
  intro later hl hle
  have h1 := (head_len (lid := x.1) hx).2
  rw [← encodeGrain_eq _ _ _ hx.wf] at h1
  unfold dataThere dataIn Grain.payload
  simp only [Stream.base, Nat.sub_zero]
  by_cases hd : x.2.data.getD [] = []
  · rw [if_pos hd]
    cases hdt : x.2.data with
    | none => simp [Data.load]
    | some d =>
      rw [hdt] at hd
      simp only [Option.getD_some] at hd
      subst hd
      simp [Data.load]
  · rw [if_neg hd]
    have hload := load_eq hg hx hl
    have hfile := load_eq hg hx hf
    cases hdt : x.2.data with
    | none => rw [hdt] at hd; simp at hd
    | some d =>
      rw [hdt] at hd
      simp only [Option.getD_some] at hd
      unfold dataSize at hload hfile hr ⊢
      simp only [hdt, Option.getD_some] at hload hfile h1 hr ⊢
      by_cases hdf : o.defers = true
      · have hm : o.mode ≠ .loadNever := by
          intro hm
          unfold Opts.defers at hdf
          rw [hm] at hdf
          simp at hdf
        rw [if_pos hdf, if_neg hm, if_pos hdf]
        simp only [Data.load, hload]
        cases d with
        | nil => exact absurd rfl hd
        | cons b d =>
          simp only [Option.map_some, List.length_cons] at *
          congr 2
          omega
      · rw [if_neg hdf, if_neg hdf]
        by_cases hm : o.mode = .loadNever
        · rw [if_pos (by simp [hm]), if_pos hm]
          rfl
        · rw [if_neg (by simpa using hm), if_neg hm]
          simp only [Data.load, hfile]
          cases d with
          | nil => exact absurd rfl hd
          | cons b d =>
            simp only [Option.map_some, List.length_cons] at *
            congr 2
            omega

theorem pull_meet {f : FileSpec} (hf : f.Ok) {file : Bytes} (hg : Growing f file) {o : Opts} (ho : o.seekable = true) :
    ∀ (rest : List (Nat × Grain)) (p : Nat), Here f rest p → ∀ x rest',
      meet f.major o.localIds rest (file.length - grainsEnd f (f.grains.length - rest.length)) = some (x, rest') →
      ∃ a q, pull o file f.hdr false p = (a, f.hdr, some q) ∧ Gives f o file a x ∧ Here f rest' q := by
  intro rest
  induction rest with
  | nil =>
    intro p hh x rest' hm
    simp only [meet] at hm
    split at hm
    · simp at hm
    · rename_i hroom
      simp only [Option.some.injEq, Prod.mk.injEq] at hm
      obtain ⟨rfl, rfl⟩ := hm
      simp only [List.length_nil, Nat.sub_zero] at hroom
      have hle := growing_len hg
      rcases hh with ⟨pre, hpre, rfl⟩ | ⟨-, rfl⟩
      · rw [List.append_nil] at hpre
        subst hpre
        by_cases hz : file.length ≤ grainsEnd f f.grains.length
        · exact ⟨.stop, _, pull_enter_eof o file _ _ hz, trivial, .inl ⟨f.grains, by simp, rfl⟩⟩
        · have hd := growing_drop hg (pre := f.grains) (rest := []) (by simp)
          simp only [List.flatMap_nil, List.nil_append] at hd
          have heq := hd.eq_of_length_le (by rw [List.length_drop]; show 8 ≤ _; omega)
          have hat : At ⟨0, file⟩ (grainsEnd f f.grains.length) terminator := by
            refine ⟨Nat.zero_le _, ?_⟩
            show terminator <+: file.drop (grainsEnd f f.grains.length)
            rw [heq]
            exact List.prefix_refl _
          rw [pull_eq, terminator_step o f.hdr _ _ hat]
          cases hc : o.concat with
          | false => exact ⟨.stop, _, rfl, trivial, .inr ⟨rfl, rfl⟩⟩
          | true =>
            simp only [if_true]
            exact ⟨.stop, _, pull_enter_eof o file _ _ (by omega), trivial, .inr ⟨rfl, rfl⟩⟩
      · exact ⟨.stop, _, pull_enter_eof o file _ _ hle, trivial, .inr ⟨rfl, rfl⟩⟩
  | cons y rest ih =>
    intro p hh x rest' hm
    obtain ⟨pre, hpre, rfl⟩ : ∃ pre, f.grains = pre ++ y :: rest ∧ p = grainsEnd f pre.length := by
      rcases hh with h | ⟨h, -⟩
      · exact h
      · simp at h
    have hidx : f.grains.length - (y :: rest).length = pre.length := by rw [hpre]; simp
    have hidx2 : f.grains.length - rest.length = (pre ++ [y]).length := by rw [hpre]; simp; omega
    have hnext := grainsEnd_next f hpre
    have hpre2 : f.grains = (pre ++ [y]) ++ rest := by rw [hpre]; simp
    have hy := hf.grains y (by rw [hpre]; simp)
    have hlen := (head_len (lid := y.1) hy.2).2
    rw [← encodeGrain_eq _ _ _ hy.2.wf] at hlen
    rw [hidx] at hm
    rw [hidx2, hnext] at ih
    have ih' := ih (grainsEnd f pre.length + (encodeGrain f.major y.1 y.2).length) (.inl ⟨pre ++ [y], hpre2, hnext.symm⟩)
    simp only [meet] at hm
    rw [← Nat.sub_sub] at ih'
    by_cases h0 : file.length - grainsEnd f pre.length = 0
    · rw [if_pos h0] at hm
      simp only [Option.some.injEq, Prod.mk.injEq] at hm
      obtain ⟨rfl, rfl⟩ := hm
      exact ⟨.stop, _, pull_enter_eof o file _ _ (by omega), trivial, .inl ⟨pre, hpre, rfl⟩⟩
    · rw [if_neg h0] at hm
      by_cases h8 : file.length - grainsEnd f pre.length < 8
      · rw [if_pos h8] at hm
        simp at hm
      · rw [if_neg h8] at hm
        have hd := growing_drop hg hpre
        rw [List.flatMap_cons, encodeGrain_eq _ _ _ hy.2.wf, grai_split, List.append_assoc, List.append_assoc] at hd
        by_cases hhd : (graiHead f.major y.1 y.2).length ≤ file.length - grainsEnd f pre.length
        · have hat : At ⟨0, file⟩ (grainsEnd f pre.length) (graiHead f.major y.1 y.2) := by
            refine ⟨Nat.zero_le _, ?_⟩
            show _ <+: file.drop (grainsEnd f pre.length)
            exact List.prefix_of_prefix_length_le (List.prefix_append _ _) hd (by rw [List.length_drop]; exact hhd)
          have hst := step_head o f.hdr _ hy.1 hy.2 hat
          rw [drops_chosen, ← encodeGrain_eq _ _ _ hy.2.wf] at hst
          rw [pull_eq, hst]
          cases hch : chosen o.localIds y.1 with
          | false =>
            rw [hch, if_pos rfl] at hm
            simp only [Bool.not_false, if_true]
            exact ih' x rest' hm
          | true =>
            rw [hch, if_neg (by simp)] at hm
            simp only [Bool.not_true, Bool.false_eq_true, if_false]
            rw [if_neg (by unfold dataSize; omega)] at hm
            simp only [Option.some.injEq, Prod.mk.injEq] at hm
            obtain ⟨rfl, rfl⟩ := hm
            refine ⟨_, _, rfl, ?_, .inl ⟨pre ++ [y], hpre2, hnext.symm⟩⟩
            exact gives_grain hpre hy.2 hg o _ rfl (by unfold dataSize; omega) h0
        · have hsh : Short ⟨0, file⟩ (grainsEnd f pre.length) (graiHead f.hdr.major y.1 y.2) 0 := by
            refine ⟨Nat.zero_le _, ?_, ?_⟩
            · show file.drop (grainsEnd f pre.length) <+: graiHead f.major y.1 y.2
              exact List.prefix_of_prefix_length_le hd (List.prefix_append _ _) (by rw [List.length_drop]; omega)
            · show (file.drop (grainsEnd f pre.length)).length + 0 < (graiHead f.major y.1 y.2).length
              rw [List.length_drop]; omega
          obtain ⟨hen, hst⟩ := step_short o f.hdr _ hy.1 hy.2 hsh (by simp only [Stream.fin]; omega)
          have hok := (grai_len (lid := y.1) hy.2).2
          have hend : Block.endPos ⟨grainsEnd f pre.length, (graiBlk f.hdr.major y.1 y.2).size, tGrai⟩ =
              grainsEnd f pre.length + (encodeGrain f.major y.1 y.2).length := by
            rw [encodeGrain_eq _ _ _ hy.2.wf, hok.length]; rfl
          have hzero : file.length - grainsEnd f pre.length - (encodeGrain f.major y.1 y.2).length = 0 := by omega
          rw [drops_chosen, show graiBlk f.hdr.major y.1 y.2 = graiBlk f.major y.1 y.2 from rfl,
            ← encodeGrain_eq _ _ _ hy.2.wf] at hst
          rw [pull_eq]
          cases hch : chosen o.localIds y.1 with
          | false =>
            rw [hch, if_pos rfl] at hm
            rcases hst with hst | ⟨-, hst⟩
            · have hmz : meet f.major o.localIds rest 0 = some (.stop, rest) := by
                cases rest <;> simp [meet]
              rw [hzero, hmz] at hm
              simp only [Option.some.injEq, Prod.mk.injEq] at hm
              obtain ⟨rfl, rfl⟩ := hm
              rw [hst]
              simp only [eofPos]
              rw [if_neg (by simp), hen]
              simp only [ho, if_true, hend]
              exact ⟨.stop, _, rfl, trivial, .inl ⟨pre ++ [y], hpre2, hnext.symm⟩⟩
            · rw [hst]
              exact ih' x rest' hm
          | true =>
            rw [hch, if_neg (by simp), if_pos (by unfold dataSize; omega)] at hm
            simp only [Option.some.injEq, Prod.mk.injEq] at hm
            obtain ⟨rfl, rfl⟩ := hm
            rcases hst with hst | ⟨hdr, -⟩
            · rw [hst]
              simp only [eofPos]
              rw [if_neg (by simp), hen]
              simp only [ho, if_true, hend]
              exact ⟨.stop, _, rfl, trivial, .inl ⟨pre ++ [y], hpre2, hnext.symm⟩⟩
            · rw [hch] at hdr
              simp at hdr

theorem follow_gives {f : FileSpec} (hf : f.Ok) : ∀ (calls : List (Opts × Bytes)) (rest : List (Nat × Grain)) (p : Nat) (seen : List Found),
    (∀ c ∈ calls, c.1.seekable = true ∧ Growing f c.2) → Here f rest p → foundBy f rest calls = some seen →
    GivesAll f calls (follow f.hdr (some p) calls) seen := by
  intro calls
  induction calls with
  | nil =>
    intro rest p seen _ _ h
    simp only [foundBy, Option.some.injEq] at h
    subst h
    trivial
  | cons c calls ih =>
    obtain ⟨o, file⟩ := c
    intro rest p seen hc hh h
    simp only [foundBy] at h
    cases hm : meet f.major o.localIds rest (file.length - grainsEnd f (f.grains.length - rest.length)) with
    | none => rw [hm] at h; simp at h
    | some v =>
      obtain ⟨x, rest'⟩ := v
      rw [hm] at h
      simp only [Option.map_eq_some_iff] at h
      obtain ⟨seen', h1, rfl⟩ := h
      obtain ⟨ho, hg⟩ := hc (o, file) (by simp)
      obtain ⟨a, q, h2, h3, h4⟩ := pull_meet hf hg ho rest p hh x rest' hm
      simp only [follow, h2]
      exact ⟨h3, ih rest' q seen' (fun c hx => hc c (by simp [hx])) h4 h1⟩

end Follow80

/-- **C80.** A reader opens a file that begins with the head of `f`. Afterwards it calls `next()` on generators of the session as often
as it likes, when the file has grown to whatever part of `f`. As long as no call finds the file ending within the eight bytes with which
a block begins, each call gives what `meet` says. -/
theorem C80_follow (f : FileSpec) (hf : f.Ok) (first : Bytes) (hfirst : f.bytes.take (grainsEnd f 0) <+: first)
    (calls : List (Opts × Bytes)) (hc : ∀ c ∈ calls, c.1.seekable = true ∧ Growing f c.2) (seen : List Found)
    (hs : foundBy f f.grains calls = some seen) :
    ∃ answers, watch first calls = .ok (f.hdr, answers) ∧ GivesAll f calls answers seen := by
  have h0 : grainsEnd f 0 = (encodeFileHeader f.major f.minor ++ encodeHead f.head).length := by simp [grainsEnd]
  have hfr : f.bytes.take (grainsEnd f 0) = front f := by
    unfold FileSpec.bytes front
    rw [h0, ← List.append_assoc, List.take_left, encodeHead_eq _ hf.head.wf]
    simp [blksBytes]
  rw [hfr] at hfirst
  have hl : grainsEnd f 0 = (front f).length := by
    rw [← hfr, List.length_take]
    unfold FileSpec.bytes
    rw [h0]
    simp
  have hh : decodeFileHeaders false ⟨0, first⟩ 0 = .ok (f.hdr, 0 + (front f).length) :=
    fileHeaders_read hf.major hf.minor hf.head (decoHead_self hf.head) (fun _ h => by simp at h) _ _ ⟨Nat.zero_le _, hfirst⟩
  unfold watch
  rw [hh]
  refine ⟨_, rfl, Follow80.follow_gives hf calls f.grains _ seen hc (.inl ⟨[], by simp, ?_⟩) hs⟩
  simp [hl]

/-! ## Nothing is missed -/

/-- The grains among what was found. -/
def grainsOf (seen : List Found) : List (Nat × Grain) :=
  seen.filterMap (fun x => match x with | .grain l g _ => some (l, g) | .stop => none)

/-- The grains among the answers, as a program sees them. -/
def given (answers : List Pulled) : List (Meta × Nat) :=
  answers.filterMap (fun x => match x with | .item it => some (it.info, it.localId) | _ => none)

/-- Of every grain that begins in the file at most data is missing, and the end is there as a whole or not at all. -/
def Complete (f : FileSpec) (file : Bytes) : Prop :=
  (∀ k x, f.grains[k]? = some x → grainsEnd f k < file.length → grainsEnd f (k + 1) ≤ file.length + dataSize x.2) ∧
    (grainsEnd f f.grains.length < file.length → file.length = f.bytes.length)

/-- The file ends between two grains, or is finished. -/
def Between (f : FileSpec) (file : Bytes) : Prop :=
  (∃ k, k ≤ f.grains.length ∧ file.length = grainsEnd f k) ∨ file.length = f.bytes.length

namespace Follow80

open Verif.Gsf.Follow

theorem bytes_len (f : FileSpec) : f.bytes.length = grainsEnd f f.grains.length + 8 := by
  unfold FileSpec.bytes grainsEnd
  rw [List.take_length]
  simp only [List.length_append, show terminator.length = 8 from rfl]
  omega

theorem meet_sublist (major : Nat) (ids : Option (List Nat)) : ∀ (rest : List (Nat × Grain)) (room : Nat) (x : Found) (rest' : List (Nat × Grain)),
    meet major ids rest room = some (x, rest') → (grainsOf [x] ++ rest').Sublist rest := by
  intro rest
  induction rest with
  | nil =>
    intro room x rest' h
    simp only [meet] at h
    split at h
    · simp at h
    · simp only [Option.some.injEq, Prod.mk.injEq] at h
      obtain ⟨rfl, rfl⟩ := h
      exact List.Sublist.refl _
  | cons y gs ih =>
    intro room x rest' h
    simp only [meet] at h
    by_cases h1 : room = 0
    · rw [if_pos h1] at h
      simp only [Option.some.injEq, Prod.mk.injEq] at h
      obtain ⟨rfl, rfl⟩ := h
      exact List.Sublist.refl _
    · rw [if_neg h1] at h
      by_cases h2 : room < 8
      · rw [if_pos h2] at h; simp at h
      · rw [if_neg h2] at h
        by_cases h3 : chosen ids y.1 = false
        · rw [if_pos h3] at h
          exact (ih _ _ _ h).cons y
        · rw [if_neg h3] at h
          by_cases h4 : room + dataSize y.2 < (encodeGrain major y.1 y.2).length
          · rw [if_pos h4] at h
            simp only [Option.some.injEq, Prod.mk.injEq] at h
            obtain ⟨rfl, rfl⟩ := h
            exact List.sublist_cons_self _ _
          · rw [if_neg h4] at h
            simp only [Option.some.injEq, Prod.mk.injEq] at h
            obtain ⟨rfl, rfl⟩ := h
            exact List.Sublist.refl _

theorem grainsOf_cons (x : Found) (l : List Found) : grainsOf (x :: l) = grainsOf [x] ++ grainsOf l := by
  cases x <;> rfl

theorem found_sublist (f : FileSpec) : ∀ (calls : List (Opts × Bytes)) (rest : List (Nat × Grain)) (seen : List Found),
    foundBy f rest calls = some seen → (grainsOf seen).Sublist rest := by
  intro calls
  induction calls with
  | nil =>
    intro rest seen h
    simp only [foundBy, Option.some.injEq] at h
    subst h
    exact List.nil_sublist _
  | cons c calls ih =>
    obtain ⟨o, file⟩ := c
    intro rest seen h
    simp only [foundBy] at h
    cases hm : meet f.major o.localIds rest (file.length - grainsEnd f (f.grains.length - rest.length)) with
    | none => rw [hm] at h; simp at h
    | some v =>
      obtain ⟨x, rest'⟩ := v
      rw [hm] at h
      simp only [Option.map_eq_some_iff] at h
      obtain ⟨seen', h1, rfl⟩ := h
      rw [grainsOf_cons]
      exact ((ih rest' seen' h1).append_left _).trans (meet_sublist _ _ _ _ _ _ hm)

theorem meet_complete {f : FileSpec} (hf : f.Ok) {file : Bytes} (hg : Growing f file) (hc : Complete f file) {pre rest : List (Nat × Grain)}
    (hpre : f.grains = pre ++ rest) :
    (meet f.major none rest (file.length - grainsEnd f pre.length) = some (.stop, rest) ∧
      (file.length ≤ grainsEnd f pre.length ∨ rest = [])) ∨
    ∃ x rest' there, rest = x :: rest' ∧
      meet f.major none rest (file.length - grainsEnd f pre.length) = some (.grain x.1 x.2 there, rest') ∧
      grainsEnd f (pre.length + 1) + there = file.length + dataSize x.2 := by
  cases rest with
  | nil =>
    left
    refine ⟨?_, .inr rfl⟩
    rw [List.append_nil] at hpre
    simp only [meet]
    rw [if_neg]
    intro ⟨h1, h2⟩
    have := hc.2
    rw [bytes_len] at this
    rw [← hpre] at h1 h2
    omega
  | cons x rest =>
    by_cases h0 : file.length ≤ grainsEnd f pre.length
    · left
      refine ⟨?_, .inl h0⟩
      simp only [meet]
      rw [if_pos (by omega)]
    · right
      have hx := hf.grains x (by rw [hpre]; simp)
      have hn := grainsEnd_next f hpre
      rw [List.length_append, List.length_singleton] at hn
      have hk := hc.1 pre.length x (by rw [hpre]; simp) (by omega)
      have hlen := head_len (lid := x.1) hx.2
      rw [← encodeGrain_eq _ _ _ hx.2.wf] at hlen
      unfold dataSize at *
      refine ⟨x, rest, file.length - grainsEnd f pre.length + (x.2.data.getD []).length - (encodeGrain f.major x.1 x.2).length,
        rfl, ?_, ?_⟩
      · simp only [meet]
        unfold dataSize at *
        rw [if_neg (by omega), if_neg (by omega), if_neg (by simp [chosen]), if_neg (by omega)]
      · omega

theorem found_complete {f : FileSpec} (hf : f.Ok) : ∀ (calls : List (Opts × Bytes)) (pre rest : List (Nat × Grain)), f.grains = pre ++ rest →
    (∀ c ∈ calls, c.1.localIds = none ∧ Growing f c.2 ∧ Complete f c.2) →
    ∃ seen, foundBy f rest calls = some seen ∧ seen.length = calls.length ∧ grainsOf seen <+: rest ∧
      (∀ i c, calls[i]? = some c → seen[i]? = some .stop →
        c.2.length ≤ grainsEnd f (pre.length + (grainsOf (seen.take i)).length) ∨ grainsOf (seen.take i) = rest) ∧
      (∀ i c l g there, calls[i]? = some c → seen[i]? = some (.grain l g there) →
        rest[(grainsOf (seen.take i)).length]? = some (l, g) ∧
          grainsEnd f (pre.length + (grainsOf (seen.take i)).length + 1) + there = c.2.length + dataSize g) := by
  intro calls
  induction calls with
  | nil => intro pre rest _ _; exact ⟨[], rfl, rfl, List.nil_prefix, by simp, by simp⟩
  | cons c calls ih =>
    obtain ⟨o, file⟩ := c
    intro pre rest hpre hc
    obtain ⟨h1, h2, h3⟩ := hc (o, file) (by simp)
    simp only at h1 h2 h3
    have hidx : f.grains.length - rest.length = pre.length := by rw [hpre]; simp
    rcases meet_complete hf h2 h3 hpre with ⟨hm, hend⟩ | ⟨x, rest', there, rfl, hm, hth⟩
    · obtain ⟨seen, s1, s2, s3, s4, s5⟩ := ih pre rest hpre (fun c hx => hc c (by simp [hx]))
      refine ⟨.stop :: seen, ?_, by simp [s2], ?_, ?_, ?_⟩
      · simp only [foundBy, hidx, h1, hm, s1, Option.map_some]
      · rw [grainsOf_cons]; exact s3
      · intro i c hi hs
        cases i with
        | zero =>
          simp only [List.getElem?_cons_zero, Option.some.injEq] at hi
          subst hi
          simp only [List.take_zero]
          rcases hend with h | h
          · exact .inl (by simpa [grainsOf] using h)
          · exact .inr (by rw [h]; rfl)
        | succ i =>
          rw [List.getElem?_cons_succ] at hi hs
          rw [List.take_succ_cons, grainsOf_cons]
          exact s4 i c hi hs
      · intro i c l g there hi hs
        cases i with
        | zero => simp at hs
        | succ i =>
          rw [List.getElem?_cons_succ] at hi hs
          rw [List.take_succ_cons, grainsOf_cons]
          exact s5 i c l g there hi hs
    · have hpre2 : f.grains = (pre ++ [x]) ++ rest' := by rw [hpre]; simp
      obtain ⟨seen, s1, s2, s3, s4, s5⟩ := ih (pre ++ [x]) rest' hpre2 (fun c hx => hc c (by simp [hx]))
      have hone : ∀ l, grainsOf (Found.grain x.1 x.2 there :: l) = x :: grainsOf l := fun l => by
        rw [grainsOf_cons]; rfl
      refine ⟨.grain x.1 x.2 there :: seen, ?_, by simp [s2], ?_, ?_, ?_⟩
      · simp only [foundBy, hidx, h1, hm, s1, Option.map_some]
      · rw [hone]
        exact List.cons_prefix_cons.2 ⟨rfl, s3⟩
      · intro i c hi hs
        cases i with
        | zero => simp at hs
        | succ i =>
          rw [List.getElem?_cons_succ] at hi hs
          rw [List.take_succ_cons, hone]
          have := s4 i c hi hs
          rw [List.length_append, List.length_singleton] at this
          rw [List.length_cons, List.cons.injEq]
          rcases this with h | h
          · exact .inl (by rw [show pre.length + ((grainsOf (List.take i seen)).length + 1) =
              pre.length + 1 + (grainsOf (List.take i seen)).length by omega]; exact h)
          · exact .inr ⟨rfl, h⟩
      · intro i c l g t hi hs
        cases i with
        | zero =>
          simp only [List.getElem?_cons_zero, Option.some.injEq, Found.grain.injEq] at hi hs
          subst hi
          obtain ⟨rfl, rfl, rfl⟩ := hs
          exact ⟨rfl, hth⟩
        | succ i =>
          rw [List.getElem?_cons_succ] at hi hs
          have := s5 i c l g t hi hs
          rw [List.take_succ_cons, hone, List.length_cons, List.getElem?_cons_succ]
          rw [List.length_append, List.length_singleton] at this
          refine ⟨this.1, ?_⟩
          rw [show pre.length + ((grainsOf (List.take i seen)).length + 1) + 1 =
              pre.length + 1 + (grainsOf (List.take i seen)).length + 1 by omega]
          exact this.2

theorem given_eq {f : FileSpec} : ∀ {calls : List (Opts × Bytes)} {answers : List Pulled} {seen : List Found}, GivesAll f calls answers seen →
    given answers = (grainsOf seen).map (fun x => (x.2.toMeta f.major, x.1)) := by
  intro calls
  induction calls with
  | nil =>
    intro answers seen h
    cases answers <;> cases seen <;> simp_all [GivesAll, given, grainsOf]
  | cons c calls ih =>
    obtain ⟨o, file⟩ := c
    intro answers seen h
    cases answers with
    | nil => cases seen <;> simp [GivesAll] at h
    | cons a as =>
      cases seen with
      | nil => simp [GivesAll] at h
      | cons b bs =>
        obtain ⟨h1, h2⟩ := h
        have := ih h2
        unfold given grainsOf at *
        cases a <;> cases b <;> simp_all [Gives]

theorem gives_at {f : FileSpec} : ∀ {calls : List (Opts × Bytes)} {answers : List Pulled} {seen : List Found}, GivesAll f calls answers seen →
    ∀ (i : Nat) (o : Opts) (file : Bytes), calls[i]? = some (o, file) → ∃ a x, answers[i]? = some a ∧ seen[i]? = some x ∧ Gives f o file a x := by
  intro calls
  induction calls with
  | nil => intro answers seen _ i o file h; simp at h
  | cons c calls ih =>
    obtain ⟨o, file⟩ := c
    intro answers seen h i o' file' hi
    cases answers with
    | nil => cases seen <;> simp [GivesAll] at h
    | cons a as =>
      cases seen with
      | nil => simp [GivesAll] at h
      | cons b bs =>
        obtain ⟨h1, h2⟩ := h
        cases i with
        | zero =>
          simp only [List.getElem?_cons_zero, Option.some.injEq, Prod.mk.injEq] at hi
          obtain ⟨rfl, rfl⟩ := hi
          exact ⟨a, b, rfl, rfl, h1⟩
        | succ i =>
          simp only [List.getElem?_cons_succ] at hi ⊢
          exact ih h2 i o' file' hi

theorem gives_take {f : FileSpec} : ∀ {calls : List (Opts × Bytes)} {answers : List Pulled} {seen : List Found}, GivesAll f calls answers seen →
    answers.length = calls.length ∧ ∀ i, GivesAll f (calls.take i) (answers.take i) (seen.take i) := by
  intro calls
  induction calls with
  | nil =>
    intro answers seen h
    cases answers <;> cases seen <;> simp_all [GivesAll]
  | cons c calls ih =>
    obtain ⟨o, file⟩ := c
    intro answers seen h
    cases answers with
    | nil => cases seen <;> simp [GivesAll] at h
    | cons a as =>
      cases seen with
      | nil => simp [GivesAll] at h
      | cons b bs =>
        obtain ⟨h1, h2⟩ := h
        obtain ⟨h3, h4⟩ := ih h2
        refine ⟨by simp [h3], ?_⟩
        intro i
        cases i with
        | zero => trivial
        | succ i => exact ⟨h1, h4 i⟩

end Follow80

/-- **C80**, whatever parts of the file the calls see: no grain is given twice, and the grains come in the order of the file. -/
theorem C80_in_order (f : FileSpec) (hf : f.Ok) (first : Bytes) (hfirst : f.bytes.take (grainsEnd f 0) <+: first)
    (calls : List (Opts × Bytes)) (hc : ∀ c ∈ calls, c.1.seekable = true ∧ Growing f c.2) (seen : List Found)
    (hs : foundBy f f.grains calls = some seen) :
    ∃ answers, watch first calls = .ok (f.hdr, answers) ∧
      (given answers).Sublist (f.grains.map (fun x => (x.2.toMeta f.major, x.1))) := by
  obtain ⟨answers, h1, h2⟩ := C80_follow f hf first hfirst calls hc seen hs
  refine ⟨answers, h1, ?_⟩
  rw [Follow80.given_eq h2]
  exact (Follow80.found_sublist f calls _ seen hs).map _

/-- **C80**, when nothing is missed: the calls ask for all grains, and each sees the file when of every grain that begins in it at most
data is missing.  Then the answers are the grains of the file from the first on, each once.  A call that ends its generator does so when
every grain that begins in the file it sees has been given.  The data can be taken at any later time: deferred data as far as it is in
the file then. -/
theorem C80_each_once (f : FileSpec) (hf : f.Ok) (first : Bytes) (hfirst : f.bytes.take (grainsEnd f 0) <+: first)
    (calls : List (Opts × Bytes)) (hc : ∀ c ∈ calls, c.1.seekable = true ∧ c.1.localIds = none ∧ Growing f c.2 ∧ Complete f c.2) :
    ∃ answers n, watch first calls = .ok (f.hdr, answers) ∧ answers.length = calls.length ∧
      given answers = (f.grains.take n).map (fun x => (x.2.toMeta f.major, x.1)) ∧
      (∀ i o file, calls[i]? = some (o, file) →
        (answers[i]? = some .stop ∧ (file.length ≤ grainsEnd f (given (answers.take i)).length ∨
          (given (answers.take i)).length = f.grains.length)) ∨
        ∃ it x, answers[i]? = some (.item it) ∧ f.grains[(given (answers.take i)).length]? = some x ∧
          it.info = x.2.toMeta f.major ∧ it.localId = x.1 ∧
          grainsEnd f ((given (answers.take i)).length + 1) ≤ file.length + dataSize x.2 ∧
          (∀ later, Growing f later → file.length ≤ later.length →
            grainsEnd f ((given (answers.take i)).length + 1) ≤ (if o.defers then later.length else file.length) →
            it.data.load later = dataFor o.mode x.2)) := by
  obtain ⟨seen, s1, s2, s3, s4, s5⟩ := Follow80.found_complete hf calls [] f.grains rfl (fun c hx => (hc c hx).2)
  obtain ⟨answers, h1, h2⟩ := C80_follow f hf first hfirst calls (fun c hx => ⟨(hc c hx).1, (hc c hx).2.2.1⟩) seen s1
  obtain ⟨h3, h4⟩ := Follow80.gives_take h2
  have hn : ∀ i, (given (answers.take i)).length = (grainsOf (seen.take i)).length := fun i => by
    rw [Follow80.given_eq (h4 i), List.length_map]
  refine ⟨answers, (grainsOf seen).length, h1, h3, ?_, ?_⟩
  · rw [Follow80.given_eq h2]
    congr 1
    exact List.prefix_iff_eq_take.1 s3
  · intro i o file hi
    obtain ⟨a, x, ha, hx, hg⟩ := Follow80.gives_at h2 i o file hi
    rw [hn i]
    cases x with
    | stop =>
      left
      have := s4 i (o, file) hi hx
      simp only [List.length_nil, Nat.zero_add] at this
      cases a with
      | stop => exact ⟨ha, this.imp id (fun h => by rw [h])⟩
      | _ => simp [Gives] at hg
    | grain l g there =>
      right
      have := s5 i (o, file) l g there hi hx
      simp only [List.length_nil, Nat.zero_add] at this
      cases a with
      | item it =>
        obtain ⟨g1, g2, g3⟩ := hg
        refine ⟨it, (l, g), ha, this.1, g1, g2, by have := this.2; simp only; omega, ?_⟩
        intro later hl hle hend
        rw [g3 later hl hle]
        have h5 := this.2
        unfold dataThere dataFor
        by_cases hm : o.mode = .loadNever
        · rw [if_pos hm, if_pos hm]
        · rw [if_neg hm, if_neg hm]
          have hsz : dataSize g ≤ (if o.defers then there + (later.length - file.length) else there) := by
            cases hd : o.defers <;> simp only [hd, Bool.false_eq_true, if_false, if_true] at hend ⊢ <;> omega
          unfold dataSize at hsz
          cases hp : g.payload with
          | none => rfl
          | some d =>
            simp only [Option.map_some, Option.some.injEq]
            have : g.data.getD [] = d := by
              unfold Grain.payload at hp
              split at hp <;> simp_all
            rw [this] at hsz
            rw [List.take_of_length_le hsz]
      | _ => simp [Gives] at hg

/-! ## With the encoder -/

namespace Follow80

open Verif.Gsf.Follow Verif.Gsf.Crash

theorem take_prefix {f : FileSpec} {file : Bytes} {gs gs' : List (Nat × Grain)} (hg : f.grains = gs ++ gs')
    (hb : file = encodeFileHeader f.major f.minor ++ encodeHead f.head ++ gs.flatMap (fun x => encodeGrain f.major x.1 x.2)) :
    Growing f file ∧ Complete f file ∧ file.length = grainsEnd f gs.length ∧ f.bytes.take (grainsEnd f 0) <+: file := by
  have h0 : grainsEnd f 0 = (encodeFileHeader f.major f.minor ++ encodeHead f.head).length := by simp [grainsEnd]
  have hl : file.length = grainsEnd f gs.length := by
    rw [grainsEnd_pre f hg, hb, h0, List.length_append]
  refine ⟨⟨by rw [hl]; exact grainsEnd_mono f (Nat.zero_le _), ?_⟩, ⟨?_, ?_⟩, hl, ?_⟩
  · rw [hb, h0, List.drop_left, hg, List.flatMap_append, List.append_assoc]
    exact List.prefix_append _ _
  · intro k x hk hlt
    rw [hl] at hlt ⊢
    have : k < gs.length := Nat.lt_of_not_le (fun hle => by have := grainsEnd_mono f hle; omega)
    have := grainsEnd_mono f (a := k + 1) (b := gs.length) this
    omega
  · intro h
    rw [hl] at h
    have := grainsEnd_mono f (a := gs.length) (b := f.grains.length) (by rw [hg]; simp)
    omega
  · unfold FileSpec.bytes
    rw [h0, ← List.append_assoc, List.take_left, hb]
    exact List.prefix_append _ _

theorem head_length (e : Enc) (w : List (Nat × Grain)) :
    (encodeHead (streamSpec e w).head).length = (encodeHead (plainSpec e false w).head).length := by
  unfold encodeHead
  have hpre : encodeHeadPre (streamSpec e w).head = encodeHeadPre (plainSpec e false w).head :=
    encodeHeadPre_segments (e.headIn false) _ (by simp only [Enc.headIn, List.map_map]; rfl)
  rw [hpre]
  simp only [List.length_append]
  congr 2
  unfold streamSpec plainSpec Enc.headIn
  simp only [List.length_flatMap, List.map_map]
  congr 1
  refine List.map_congr_left ?_
  intro s _
  simp [Function.comp, Seg.header, encodeSegm, encodeSegmPre, encodeSegmPost, segmBlockSize]

theorem grainsEnd_data {f : FileSpec} (hf : f.Ok) {k : Nat} {x : Nat × Grain} (hx : f.grains[k]? = some x) :
    grainsEnd f k + dataSize x.2 < grainsEnd f (k + 1) := by
  obtain ⟨hk, rfl⟩ := List.getElem?_eq_some_iff.1 hx
  have hsp : f.grains = f.grains.take k ++ f.grains[k] :: f.grains.drop (k + 1) := by
    rw [List.getElem_cons_drop, List.take_append_drop]
  have hn := grainsEnd_next f hsp
  have hg := (hf.grains f.grains[k] (List.getElem_mem hk)).2
  have hlen := head_len (lid := f.grains[k].1) hg
  rw [← encodeGrain_eq _ _ _ hg.wf] at hlen
  rw [List.length_append, List.length_singleton, List.length_take, Nat.min_eq_left (by omega)] at hn
  unfold dataSize
  omega

theorem grainsEnd_lt {f : FileSpec} (hf : f.Ok) {k : Nat} (hk : k < f.grains.length) : grainsEnd f k < grainsEnd f (k + 1) := by
  have := grainsEnd_data hf (List.getElem?_eq_getElem hk)
  omega

/-- The file of a finished dump. -/
theorem finished {e : Enc} {w : List (Nat × Grain)} {file : Bytes} (hb : file = (streamSpec e w).bytes) :
    Growing (plainSpec e false w) file ∧ Complete (plainSpec e false w) file ∧ file.length = (plainSpec e false w).bytes.length := by
  have h0 : ∀ f : FileSpec, grainsEnd f 0 = (encodeFileHeader f.major f.minor ++ encodeHead f.head).length := fun f => by simp [grainsEnd]
  have hh : grainsEnd (streamSpec e w) 0 = grainsEnd (plainSpec e false w) 0 := by
    rw [h0, h0, List.length_append, List.length_append, head_length]
    rfl
  have hl : file.length = (plainSpec e false w).bytes.length := by
    rw [hb, bytes_len, bytes_len, grainsEnd_pre _ (pre := (streamSpec e w).grains) (rest := []) (by simp),
      grainsEnd_pre _ (pre := (plainSpec e false w).grains) (rest := []) (by simp), hh]
    rfl
  refine ⟨⟨?_, ?_⟩, ⟨?_, fun _ => hl⟩, hl⟩
  · rw [hl, bytes_len]
    have := grainsEnd_mono (plainSpec e false w) (Nat.zero_le (plainSpec e false w).grains.length)
    omega
  · rw [← hh, hb, h0]
    unfold FileSpec.bytes
    rw [← List.append_assoc, List.drop_left]
    exact List.prefix_rfl
  · intro k x hk _
    rw [hl, bytes_len]
    have := grainsEnd_mono (plainSpec e false w) (a := k + 1) (b := (plainSpec e false w).grains.length) (by
      obtain ⟨h, -⟩ := List.getElem?_eq_some_iff.1 hk
      exact h)
    omega

end Follow80

/-- **C80**, the files that the writer shows.  A new encoder that was set up in any way writes a streaming dump to a file that can seek.
All the files that its calls leave behind, from the start of the dump to its end, are of the kind that `C80_each_once` is about: parts of
one file `f`, ending between two grains. -/
theorem C80_writer {e : Enc} (hb : Born e) (hsk : e.file.seekable = true) {start stop : Gsf.Op} (hp : StreamPair e.streaming start stop)
    {during : List Gsf.Op} (hd : Edits during) (hf : Fits e (handed e (start :: during))) :
    ∃ f, Holds e (handed e (start :: during)) f ∧ f.Ok ∧
      (∀ n : Nat, let file := (e.runs (start :: during.take n)).file.bytes;
        f.bytes.take (grainsEnd f 0) <+: file ∧ Growing f file ∧ Complete f file ∧
          file.length = grainsEnd f (handed e (start :: during.take n)).length ∧
          handed e (start :: during.take n) <+: handed e (start :: during)) ∧
      (let file := (e.runs (start :: (during ++ [stop]))).file.bytes;
        Growing f file ∧ Complete f file ∧ file.length = f.bytes.length) := by
  obtain ⟨hrun, -⟩ := stream_starts hb hp
  have hlen : e.handles.length = 0 := by rw [hb.handles]; rfl
  have hl := opened_live e false
  rw [hlen] at hl
  have hold := holds_plain e ((start.run e).1.taken during)
  refine ⟨plainSpec e false ((start.run e).1.taken during), hold, hold.ok hf, ?_, ?_⟩
  · intro n
    have h2 := hl.steps start_dumped (start_parents hb.parents) (during.take n) (fun o ho => hd o (List.mem_of_mem_take ho))
    rw [List.nil_append] at h2
    have h3 := Crash.live_bytes h2
    have hpre : (start.run e).1.taken during = (start.run e).1.taken (during.take n) ++
        ((start.run e).1.runs (during.take n)).taken (during.drop n) := by
      rw [← taken_append, List.take_append_drop]
    have := Follow80.take_prefix (f := plainSpec e false ((start.run e).1.taken during))
      (gs := handed e (start :: during.take n)) (gs' := ((start.run e).1.runs (during.take n)).taken (during.drop n))
      (file := (e.runs (start :: during.take n)).file.bytes)
      (by show e.pending ++ _ = (e.pending ++ _) ++ _; rw [hpre, List.append_assoc])
      (by
        show ((start.run e).1.runs (during.take n)).file.bytes = _
        rw [hrun, h3]
        have : Crash.base (opened e) = [] := by
          show (if e.file.seekable then [] else e.file.bytes) = []
          rw [if_pos hsk]
        rw [this, List.nil_append]
        show _ = encodeFileHeader e.major e.minor ++ encodeHead (e.headIn false) ++ (e.pending ++ (start.run e).1.taken (during.take n)).flatMap
          (fun x => encodeGrain e.major x.1 x.2)
        rw [hrun]
        rfl)
    refine ⟨this.2.2.2, this.1, this.2.1, this.2.2.1, ?_⟩
    show e.pending ++ _ <+: e.pending ++ _
    rw [hpre, ← List.append_assoc]
    exact List.prefix_append _ _
  · obtain ⟨held, e', h2, hfile⟩ := stream_session hb hp hd
    have := stream_file h2 hsk
    exact Follow80.finished (e := e) (by rw [hfile, this]; rfl)

/-- **C80**, a program that writes and one that reads.  The writer is as in `C80_writer`.  The reader opens the file at any time after the
dump was started and before it is ended, and calls `next()` at any times, up to and after the end of the dump; it asks for all grains.  It gets
the grains that were handed to the dump, in that order, each once.  A call that ends the generator does so when all the grains handed over
so far were given.  The data of a grain can be taken at once and at any later time, in every mode. -/
theorem C80_live {e : Enc} (hb : Born e) (hsk : e.file.seekable = true) {start stop : Gsf.Op} (hp : StreamPair e.streaming start stop)
    {during : List Gsf.Op} (hd : Edits during) (hf : Fits e (handed e (start :: during))) (opened : Nat) (calls : List (Opts × Nat))
    (hc : ∀ c ∈ calls, c.1.seekable = true ∧ c.1.localIds = none) :
    let done := fun n : Nat => start :: (during ++ [stop]).take n
    let fileAt := fun n : Nat => (e.runs (done n)).file.bytes
    opened ≤ during.length →
    ∃ hdr answers n, watch (fileAt opened) (calls.map (fun c => (c.1, fileAt c.2))) = .ok (hdr, answers) ∧ answers.length = calls.length ∧
      given answers = ((handed e (start :: during)).take n).map (fun x => (x.2.toMeta e.major, x.1)) ∧
      (∀ (i : Nat) o at_, calls[i]? = some (o, at_) →
        (answers[i]? = some .stop ∧ (handed e (done at_)).length ≤ (given (answers.take i)).length) ∨
        ∃ it x, answers[i]? = some (.item it) ∧ (handed e (done at_))[(given (answers.take i)).length]? = some x ∧
          it.info = x.2.toMeta e.major ∧ it.localId = x.1 ∧
          ∀ later, at_ ≤ later → it.data.load (fileAt later) = dataFor o.mode x.2) := by
  intro done fileAt hopen
  obtain ⟨f, hold, hok, hw, hw'⟩ := C80_writer hb hsk hp hd hf
  have hgr : f.grains = handed e (start :: during) := hold.grains
  have hmaj : f.major = e.major := hold.version.1
  have hstop : handed e (start :: (during ++ [stop])) = handed e (start :: during) := by
    show e.pending ++ _ = e.pending ++ _
    rw [taken_append]
    have : ((start.run e).1.runs during).taken [stop] = [] := by
      show stop.takes _ ++ [] = []
      rw [stop_takes hp]; rfl
    rw [this, List.append_nil]
  have hcase : ∀ n, (n ≤ during.length ∧ done n = start :: during.take n) ∨ (during.length < n ∧ done n = start :: (during ++ [stop])) := by
    intro n
    by_cases hn : n ≤ during.length
    · exact .inl ⟨hn, by simp only [done]; rw [List.take_append_of_le_length hn]⟩
    · exact .inr ⟨by omega, by simp only [done]; rw [List.take_of_length_le (by simp; omega)]⟩
  have hall : ∀ n, Growing f (fileAt n) ∧ Complete f (fileAt n) ∧ handed e (done n) <+: f.grains ∧
      ((fileAt n).length = grainsEnd f (handed e (done n)).length ∨
        ((fileAt n).length = f.bytes.length ∧ handed e (done n) = f.grains)) := by
    intro n
    rcases hcase n with ⟨h1, h2⟩ | ⟨h1, h2⟩ <;> simp only [fileAt, h2]
    · obtain ⟨-, g2, g3, g4, g5⟩ := hw n
      exact ⟨g2, g3, hgr ▸ g5, .inl g4⟩
    · obtain ⟨g2, g3, g4⟩ := hw'
      exact ⟨g2, g3, by rw [hgr, hstop]; exact List.prefix_rfl, .inr ⟨g4, by rw [hgr, hstop]⟩⟩
  have hmono : ∀ n m, n ≤ m → (fileAt n).length ≤ (fileAt m).length := by
    intro n m hnm
    have hpre : handed e (done n) <+: handed e (done m) := by
      show e.pending ++ _ <+: e.pending ++ _
      rw [List.prefix_append_right_inj]
      have : (during ++ [stop]).take m = (during ++ [stop]).take n ++ ((during ++ [stop]).drop n).take (m - n) := by
        rw [← List.take_add]; congr 1; omega
      rw [this, taken_append]
      exact List.prefix_append _ _
    have hb' := Follow80.bytes_len f
    obtain ⟨-, -, a3, a4⟩ := hall n
    obtain ⟨-, -, b3, b4⟩ := hall m
    have h1 := grainsEnd_mono f hpre.length_le
    have h2 := grainsEnd_mono f a3.length_le
    rcases a4 with a | ⟨a, a'⟩ <;> rcases b4 with b | ⟨b, b'⟩
    · omega
    · omega
    · have : n ≤ during.length ∨ during.length < n := by omega
      rcases hcase n with ⟨c1, c2⟩ | ⟨c1, c2⟩
      · have := (hw n).2.2.2.1
        rw [a'] at h1
        have e1 : (fileAt n).length = grainsEnd f (handed e (done n)).length := by simp only [fileAt, c2]; exact this
        rw [a'] at e1
        omega
      · rcases hcase m with ⟨d1, d2⟩ | ⟨d1, d2⟩
        · omega
        · simp only [fileAt, c2, d2]; exact Nat.le_refl _
    · omega
  have hfirst : f.bytes.take (grainsEnd f 0) <+: fileAt opened := by
    rcases hcase opened with ⟨h1, h2⟩ | ⟨h1, h2⟩
    · simp only [fileAt, h2]; exact (hw opened).1
    · omega
  obtain ⟨answers, n, h1, h2, h3, h4⟩ := C80_each_once f hok (fileAt opened) hfirst (calls.map (fun c => (c.1, fileAt c.2)))
    (by
      intro c hx
      obtain ⟨c', hc', rfl⟩ := List.mem_map.1 hx
      exact ⟨(hc c' hc').1, (hc c' hc').2, (hall c'.2).1, (hall c'.2).2.1⟩)
  refine ⟨f.hdr, answers, n, h1, by rw [h2, List.length_map], by rw [h3, hgr, hmaj], ?_⟩
  intro i o at_ hi
  obtain ⟨b1, b2, b3, b4⟩ := hall at_
  rcases h4 i o (fileAt at_) (by rw [List.getElem?_map, hi]; rfl) with ⟨g1, g2⟩ | ⟨it, x, g1, g2, g3, g4, g5, g6⟩
  · left
    refine ⟨g1, ?_⟩
    have hle := b3.length_le
    rcases g2 with g | g
    · refine Nat.le_of_not_lt (fun hlt => ?_)
      have hx := Follow80.grainsEnd_lt hok (k := (given (answers.take i)).length) (by omega)
      have := grainsEnd_mono f (a := (given (answers.take i)).length + 1) (b := (handed e (done at_)).length) hlt
      rcases b4 with b | ⟨b, b'⟩
      · omega
      · rw [Follow80.bytes_len] at b
        rw [b'] at this
        omega
    · omega
  · right
    generalize hk : (given (answers.take i)).length = k at *
    obtain ⟨hklt, -⟩ := List.getElem?_eq_some_iff.1 g2
    have hx := Follow80.grainsEnd_data hok g2
    have hkin : k < (handed e (done at_)).length := by
      rcases b4 with b | ⟨-, b'⟩
      · refine Nat.lt_of_not_le (fun hle => ?_)
        have := grainsEnd_mono f hle
        omega
      · rw [b']; exact hklt
    have hin : grainsEnd f (k + 1) ≤ (fileAt at_).length := by
      have := grainsEnd_mono f (a := k + 1) (b := (handed e (done at_)).length) hkin
      rcases b4 with b | ⟨b, b'⟩
      · omega
      · rw [Follow80.bytes_len] at b
        rw [b'] at this
        omega
    refine ⟨it, x, g1, ?_, by rw [g3, hmaj], g4, ?_⟩
    · obtain ⟨t, ht⟩ := b3
      rw [← ht, List.getElem?_append_left hkin] at g2
      exact g2
    · intro later hlat
      have hm := hmono at_ later hlat
      refine g6 (fileAt later) (hall later).1 hm ?_
      split <;> omega

/-! ## What can go wrong -/

/-- What a program sees of an answer: the segment and the number of bytes of data it gets when the file is finished. -/
inductive Shown where
  | grain (localId : Nat) (size : Option Nat)
  | ends
  | raises
  deriving DecidableEq

/-- A reader of the sample file that opens it when the head is there, and makes its calls when the file has the given lengths. -/
def showAt (o : Opts) (lengths : List Nat) : Option (List Shown) :=
  (watch (sample.bytes.take (grainsEnd sample 0)) (lengths.map (fun n => (o, sample.bytes.take n)))).toOption.map (fun r => r.2.map (fun a =>
    match a with
    | .item it => .grain it.localId ((it.data.load sample.bytes).map List.length)
    | .stop => .ends
    | .raised _ => .raises))

/-- The first grain of the sample file occupies the bytes 271 to 541, the last five of which are its data.  If the reader looks when 40 of its bytes are in the
file, that grain is lost: the next call gives the second one. -/
theorem C80_grain_lost_counterexample :
    showAt {} [grainsEnd sample 0 + 40, sample.bytes.length, sample.bytes.length] = some [.ends, .grain 300 (some 2), .grain 1 none] := by
  decide +kernel

/-- If it looks when four bytes of the grain are in the file, it loses its place: no later call gives a grain. -/
theorem C80_place_lost_counterexample :
    showAt {} [grainsEnd sample 0 + 4, sample.bytes.length, sample.bytes.length, sample.bytes.length] = some [.ends, .ends, .ends, .ends] := by
  decide +kernel

/-- If two bytes of the data are missing, `LOAD_IMMEDIATELY` gives data that is too short for ever; deferred data is complete later. -/
theorem C80_short_data_counterexample :
    showAt { mode := .loadImmediately } [grainsEnd sample 1 - 2, sample.bytes.length] = some [.grain 1 (some 3), .grain 300 (some 2)] ∧
      showAt {} [grainsEnd sample 1 - 2, sample.bytes.length] = some [.grain 1 (some 5), .grain 300 (some 2)] := by
  decide +kernel

/-! ## Examples -/

/-- Calls whose files the hypotheses of `C80_follow` allow, and what is found: a file that ends in the middle of the header of the second grain
of its segment, and then the rest. -/
example : (∀ c ∈ [(({ localIds := some [1] } : Opts), sample.bytes.take (grainsEnd sample 2 + 20)), ({}, sample.bytes)],
      c.1.seekable = true ∧ grainsEnd sample 0 ≤ c.2.length ∧
        (c.2.drop (grainsEnd sample 0)).isPrefixOf (sample.grains.flatMap (fun x => encodeGrain sample.major x.1 x.2) ++ terminator) = true) ∧
    (foundBy sample sample.grains [({ localIds := some [1] }, sample.bytes.take (grainsEnd sample 2 + 20)),
      ({ localIds := some [1] }, sample.bytes.take (grainsEnd sample 2 + 20)), ({}, sample.bytes)]).map (fun l => (grainsOf l).map Prod.fst) =
      some [1, 1] := by
  decide +kernel

/-- The hypotheses of `C80_live`. -/
example : Born crashEnc ∧ crashEnc.file.seekable = true ∧ StreamPair crashEnc.streaming .enter .exit ∧ Edits demoDuring ∧
    Fits crashEnc (handed crashEnc (.enter :: demoDuring)) ∧ (handed crashEnc (.enter :: demoDuring)).map Prod.fst = [3, 4, 4, 3, 4] := by
  refine ⟨(born_new ..).edits (fun o ho => (edits_of (ops := demoSetup) (by decide) o ho).1), by decide +kernel, .inr ⟨by decide +kernel, rfl, rfl⟩,
    edits_of (by decide), ⟨by decide +kernel, by decide +kernel⟩, by decide +kernel⟩

/-- A reader that looks twice after the dump was started, twice after two grains were added, and then when it is ended: `none` is the end of
its generator. -/
example : (watch (crashEnc.runs [.enter]).file.bytes ([0, 0, 1, 1, 7, 7, 7].map (fun n =>
      (({} : Opts), (crashEnc.runs (.enter :: (demoDuring ++ [Gsf.Op.exit]).take n)).file.bytes)))).toOption.map (fun r =>
        r.2.map (fun a => match a with | .item it => some it.localId | _ => none)) =
    some [some 3, none, some 4, some 4, some 3, some 4, none] := by
  decide +kernel

end Verif.Props
