import Verif.Builder.MergeTool
import Verif.Builder.Props2

/-! # C125: the merging tool and its dry run -/

namespace Verif.Builder.MergeTool
open Verif.GridSpec Verif.Index Verif.Builder

/-- Same directories, same files. -/
def Same (d d' : Disk) : Prop := (∀ p, p ∈ d'.dirs ↔ p ∈ d.dirs) ∧ ∀ p, d'.files p = d.files p

theorem makedirs_files (d : Disk) (p : List Char) : (d.makedirs p).files = d.files := by
  unfold Disk.makedirs; split <;> rfl

theorem makedirs_dirs (d : Disk) (p q : List Char) : q ∈ (d.makedirs p).dirs ↔ q ∈ d.dirs ∨ q = p := by
  unfold Disk.makedirs
  split
  · constructor
    · exact .inl
    · rintro (h | rfl) <;> assumption
  · simp [or_comm]

theorem mergeFiles_dry (input result : List Char) (system : Option (List Char)) (d : Disk) : (mergeFiles input result system true d).2 = d := by
  unfold mergeFiles
  simp only
  repeat' split
  all_goals first | rfl | simp_all

/-- Outcome of the merge of an existing input: what the dry run says, and what the run says. -/
theorem mergeFiles_ends (input result : List Char) (system : Option (List Char)) (d : Disk) :
    (mergeFiles input result system true d).1 = (mergeFiles input result system false d).1 ∨
      (mergeFiles input result system true d).1 = .ok () ∧ (mergeFiles input result system false d).1 = .error (.merge .assertion) := by
  unfold mergeFiles
  simp only
  rcases readSystem d system with e | s
  · exact .inl rfl
  · simp only
    rcases readIndex d (indexAt input) with e | i
    · exact .inl rfl
    · simp only
      rcases h : mergeContent s i with e | ⟨f, n⟩
      · exact .inl rfl
      · simp only [if_true, Bool.false_eq_true, if_false]
        obtain ⟨es, hes⟩ : ∃ es, f.matrix = some es := by
          unfold mergeContent at h
          rcases s with _ | s
          · cases hi : i.matrix <;> simp [hi, needs, bind, Except.bind, pure, Except.pure] at h
            exact ⟨_, h.1 ▸ hi⟩
          · cases hs : s.matrix <;> simp [hs, needs, bind, Except.bind, pure, Except.pure] at h
            cases hi : i.matrix <;> simp [hi] at h
            exact ⟨_, by rw [← h.1]⟩
        unfold checkFile
        by_cases hl : es.length = n
        · left; simp [hes, needs, lift, bind, Except.bind, hl, pure, Except.pure]
        · right; simp [hes, needs, lift, bind, Except.bind, hl]

/-- Where the tool writes files. -/
def Written (mode : Mode) (output p : List Char) : Prop :=
  p = join output "index.json".toList ∨
    mode = .system ∧ (p = join output "index.json.remote".toList ∨ p = join output "index.json.remote".toList ++ ".gz".toList)

theorem mergeFiles_written (input result : List Char) (system : Option (List Char)) (dry : Bool) (d : Disk) :
    (mergeFiles input result system dry d).2.dirs = d.dirs ∧ ∀ p, (mergeFiles input result system dry d).2.files p ≠ d.files p → dry = false ∧ p = result := by
  unfold mergeFiles
  rcases readSystem d system with e | s
  · simp
  · simp only
    rcases readIndex d (indexAt input) with e | i
    · simp
    · simp only
      rcases mergeContent s i with e | ⟨f, n⟩
      · simp
      · cases dry
        · refine ⟨rfl, fun p hp => ⟨rfl, ?_⟩⟩
          simp only [Bool.false_eq_true, if_false, Disk.write] at hp
          by_contra h
          simp [h] at hp
        · simp

theorem download_written (reply : Option Content) (target : List Char) (d : Disk) :
    (download reply target d).2.dirs = d.dirs ∧
      ∀ p, (download reply target d).2.files p ≠ d.files p → p = target ∨ p = target ++ ".gz".toList := by
  unfold download
  rcases reply with _ | _ | n
  · simp
  · refine ⟨rfl, fun p hp => ?_⟩
    simp only [Disk.write] at hp
    by_contra h
    rw [not_or] at h
    rw [if_neg h.1, if_neg h.2] at hp
    exact hp rfl
  · refine ⟨rfl, fun p hp => ?_⟩
    simp only [Disk.write] at hp
    by_contra h
    rw [not_or] at h
    rw [if_neg h.2] at hp
    exact hp rfl

/-- C125: whatever comes of it, the tool makes at most the output directory and writes at most the index in it, in mode `system` also the two
downloaded files. Inputs elsewhere are left alone. -/
theorem C125_written (mode : Mode) (input output : List Char) (dry : Bool) (reply : Option Content) (d : Disk) :
    (∀ p, p ∈ (main mode input output dry reply d).2.dirs → p ∈ d.dirs ∨ p = output) ∧
      ∀ p, (main mode input output dry reply d).2.files p ≠ d.files p → Written mode output p := by
  unfold main
  split
  · exact ⟨fun p h => .inl h, fun p h => absurd rfl h⟩
  · split
    · exact ⟨fun p h => .inl h, fun p h => absurd rfl h⟩
    · cases mode with
      | local_ =>
        simp only
        obtain ⟨h1, h2⟩ := mergeFiles_written input (indexAt output) none dry (d.makedirs output)
        refine ⟨fun p hp => (makedirs_dirs d output p).mp (h1 ▸ hp), fun p hp => .inl (h2 p (by rw [makedirs_files]; exact hp)).2⟩
      | system =>
        simp only
        obtain ⟨h1, h2⟩ := download_written reply (remoteAt output) (d.makedirs output)
        generalize download reply (remoteAt output) (d.makedirs output) = r at h1 h2
        obtain ⟨e | u, d1⟩ := r
        · refine ⟨fun p hp => (makedirs_dirs d output p).mp (h1 ▸ hp), fun p hp => .inr ⟨rfl, h2 p (by rw [makedirs_files]; exact hp)⟩⟩
        · simp only at h1 h2 ⊢
          obtain ⟨h3, h4⟩ := mergeFiles_written input (indexAt output) (some (remoteAt output)) dry d1
          refine ⟨fun p hp => (makedirs_dirs d output p).mp (h1 ▸ h3 ▸ hp), fun p hp => ?_⟩
          by_cases h : d1.files p = d.files p
          · exact .inl (h4 p (by rw [h]; exact hp)).2
          · exact .inr ⟨rfl, h2 p (by rw [makedirs_files]; exact h)⟩

/-- C125: a dry run in mode `local` with an output directory that exists changes nothing. -/
theorem C125_nothing_partial (input output : List Char) (reply : Option Content) (d : Disk) (ho : output ∈ d.dirs) :
    Same d (main .local_ input output true reply d).2 := by
  unfold main
  split
  · exact ⟨fun _ => .rfl, fun _ => rfl⟩
  · split
    · exact ⟨fun _ => .rfl, fun _ => rfl⟩
    · simp only [mergeFiles_dry]
      have : d.makedirs output = d := by simp [Disk.makedirs, ho]
      rw [this]
      exact ⟨fun _ => .rfl, fun _ => rfl⟩

/-- C125: in both modes a dry run leaves the index in the output directory alone. -/
theorem C125_index (mode : Mode) (input output : List Char) (reply : Option Content) (d : Disk) :
    (main mode input output true reply d).2.files (join output "index.json".toList) = d.files (join output "index.json".toList) := by
  have hne : ∀ (a : List Char), join output "index.json".toList ≠ join output "index.json.remote".toList ++ a := by
    intro a h
    have h := congrArg List.length h
    have hl : (join output "index.json.remote".toList).length = (join output "index.json".toList).length + 7 := by
      by_cases ho : output = [] ∨ output.getLast? = some '/' <;> simp [join, ho]
    rw [List.length_append] at h
    omega
  unfold main
  split
  · rfl
  · split
    · rfl
    · cases mode with
      | local_ => simp only [mergeFiles_dry, makedirs_files]
      | system =>
        simp only
        have h2 := (download_written reply (remoteAt output) (d.makedirs output)).2 (join output "index.json".toList)
        generalize download reply (remoteAt output) (d.makedirs output) = r at h2
        have h3 : r.2.files (join output "index.json".toList) = d.files (join output "index.json".toList) := by
          rw [← makedirs_files d output]
          by_contra h
          rcases h2 h with h | h
          · exact hne [] (by rw [List.append_nil]; exact h)
          · exact hne _ h
        obtain ⟨e | u, d1⟩ := r
        · exact h3
        · simp only [mergeFiles_dry]; exact h3

/-- C125: a dry run in mode `local` ends as the run does; in mode `system` the only difference is that the run may be refused because names
occur twice. -/
theorem C125_ends_partial (mode : Mode) (input output : List Char) (reply : Option Content) (d : Disk) :
    (main mode input output true reply d).1 = (main mode input output false reply d).1 ∨
      mode = .system ∧ (main mode input output true reply d).1 = .ok () ∧ (main mode input output false reply d).1 = .error (.merge .assertion) := by
  unfold main
  split
  · exact .inl rfl
  · split
    · exact .inl rfl
    · cases mode with
      | local_ =>
        simp only
        left
        unfold mergeFiles
        simp only [readSystem]
        rcases readIndex (d.makedirs output) (indexAt input) with e | i
        · rfl
        · simp only
          cases hi : i.matrix with
          | none => simp [mergeContent, needs, hi, bind, Except.bind]
          | some es => simp [mergeContent, needs, hi, bind, Except.bind, pure, Except.pure, checkFile, lift]
      | system =>
        simp only
        generalize download reply (remoteAt output) (d.makedirs output) = r
        obtain ⟨e | u, d1⟩ := r
        · exact .inl rfl
        · simp only
          rcases mergeFiles_ends input (indexAt output) (some (remoteAt output)) d1 with h | h
          · exact .inl h
          · exact .inr ⟨trivial, h⟩

theorem join_last (a b : List Char) (x : Char) (hx : x ≠ '/') (hb : b.head? = some x) : (join a b).getLast? = b.getLast? := by
  cases b with
  | nil => cases hb
  | cons y b =>
    simp at hb
    subst hb
    unfold join
    split
    · rename_i h; cases h; exact absurd rfl hx
    · split
      · rw [List.getLast?_append, List.getLast?_cons]; rfl
      · rw [List.getLast?_append, List.getLast?_cons_cons, List.getLast?_cons]; rfl

/-- C125: after a successful run the index in the output directory has, in mode `local`, the content of the input; in mode `system` the entries of
the system's index as it was sent, followed by those of the input as it was before. -/
theorem C125_result (mode : Mode) (input output : List Char) (reply : Option Content) (d d' : Disk) (i : IndexFile) (es : List (String × Raw))
    (hi : d.files (join input "index.json".toList) = some (.index i)) (hes : i.matrix = some es) (hn : (es.map Prod.fst).Nodup)
    (h : main mode input output false reply d = (.ok (), d')) :
    (mode = .local_ → d'.files (join output "index.json".toList) = some (.index i)) ∧
    (mode = .system → ∃ s ss, reply = some (.index s) ∧ s.matrix = some ss ∧ (∀ k, k ∈ ss.map Prod.fst → k ∉ es.map Prod.fst) ∧
      d'.files (join output "index.json".toList) = some (.index ⟨s.version, some (ss ++ es)⟩)) := by
  have hl1 : ∀ a, (indexAt a).getLast? = some 'n' := fun a => join_last a _ 'i' (by decide) rfl
  have hl2 : (remoteAt output).getLast? = some 'e' := join_last output _ 'i' (by decide) rfl
  have hl3 : (remoteAt output ++ ".gz".toList).getLast? = some 'z' := by rw [List.getLast?_append]; rfl
  have hne1 : ∀ a, indexAt a ≠ remoteAt output := fun a h => by
    have := hl1 a; rw [h, hl2] at this; exact absurd this (by decide)
  have hne2 : ∀ a, indexAt a ≠ remoteAt output ++ ".gz".toList := fun a h => by
    have := hl1 a; rw [h, hl3] at this; exact absurd this (by decide)
  have hi : d.files (indexAt input) = some (.index i) := hi
  unfold main at h
  split at h
  · cases h
  · split at h
    · cases h
    · cases mode with
      | local_ =>
        refine ⟨fun _ => ?_, fun h => by cases h⟩
        simp only [mergeFiles, readSystem, readIndex, makedirs_files, hi, mergeContent, hes, needs, bind, Except.bind, pure, Except.pure] at h
        have := congrArg (fun x => x.2.files (indexAt output)) h
        simpa [Disk.write, indexAt] using this.symm
      | system =>
        refine ⟨fun h => (by cases h), fun _ => ?_⟩
        rcases reply with _ | s | n
        · cases h
        · refine ⟨s, ?_⟩
          simp only [download] at h
          simp only [mergeFiles, readSystem, readIndex, Disk.write, if_true, if_neg (hne1 input), if_neg (hne2 input), makedirs_files, hi,
            Except.map] at h
          cases hs : s.matrix with
          | none =>
            simp [mergeContent, hs, needs, bind, Except.bind] at h
          | some ss =>
            refine ⟨ss, rfl, rfl, ?_⟩
            have hc : mergeContent (some s) i = .ok (⟨s.version, some (update ss es)⟩, ss.length + es.length) := by
              simp [mergeContent, hs, hes, needs, bind, Except.bind, pure, Except.pure]
            rw [hc] at h
            simp only [Bool.false_eq_true, if_false, checkFile, needs, lift, bind, Except.bind, Prod.mk.injEq] at h
            have hd : ∀ k, k ∈ ss.map Prod.fst → k ∉ es.map Prod.fst := by
              intro k h1 h2
              have := update_overlap es ss k h2 h1
              rw [if_neg (by omega)] at h
              exact absurd h.1 (by simp)
            refine ⟨hd, ?_⟩
            rw [← h.2, ← update_disjoint es ss hn (fun k h1 h2 => hd k h2 h1)]
            simp [indexAt]
        · cases h

/-! ### What a dry run changes -/

namespace Demo

def out : List Char := "out".toList
def inp : List Char := "in".toList

/-- An input index without entries; no output directory. -/
def disk : Disk := ⟨[inp], fun p => if p = indexAt inp then some (.index ⟨some (.int 1), some []⟩) else none⟩

def entry : Raw := ⟨none, none, some (.name "linear".toList), "mir".toList, "16".toList, 0⟩

end Demo

/-- C125 fails: a dry run makes the output directory; in mode `system` it writes two files, over any that are there; and it accepts inputs that
the run refuses. -/
theorem C125_refuted :
    (∃ d, Demo.out ∉ d.dirs ∧ Demo.out ∈ (main .local_ Demo.inp Demo.out true none d).2.dirs) ∧
    (∃ d s, d.files (join Demo.out "index.json.remote".toList) ≠ none ∧ Demo.out ∈ d.dirs ∧
      (main .system Demo.inp Demo.out true (some (.index s)) d).2.files (join Demo.out "index.json.remote".toList)
        ≠ d.files (join Demo.out "index.json.remote".toList)) ∧
    (∃ d s, (main .system Demo.inp Demo.out true (some (.index s)) d).1 = .ok () ∧
      (main .system Demo.inp Demo.out false (some (.index s)) d).1 = .error (.merge .assertion)) := by
  refine ⟨⟨Demo.disk, by decide, by decide⟩, ⟨⟨[Demo.inp, Demo.out], fun _ => some (.other 3)⟩, ⟨none, none⟩, by simp, by decide, ?_⟩,
    ⟨⟨[Demo.inp], fun p => if p = indexAt Demo.inp then some (.index ⟨some (.int 1), some [("a", Demo.entry)]⟩) else none⟩,
      ⟨some (.int 1), some [("a", Demo.entry)]⟩, by rfl, by rfl⟩⟩
  intro h
  cases h

-- hypotheses of `C125_result`: one entry in the input, another in the system's index
example : (main .system Demo.inp Demo.out false (some (.index ⟨some (.int 1), some [("b", Demo.entry)]⟩))
    ⟨[Demo.inp], fun p => if p = indexAt Demo.inp then some (.index ⟨some (.int 1), some [("a", Demo.entry)]⟩) else none⟩).1 = .ok () := by rfl
example : (main .local_ Demo.inp Demo.out false none Demo.disk).1 = .ok () := by rfl
-- of `C125_nothing_partial`
example : Demo.inp ∈ Demo.disk.dirs ∧ (main .local_ Demo.inp Demo.inp true none Demo.disk).1 = .ok () := ⟨by decide, by rfl⟩

end Verif.Builder.MergeTool
