import Verif.MipsText.Props
import Verif.Mips.Run

/-!
# The MIPS text, read and run

The characters that are printed, read by a reader of assembler lines and run by the processor of `Mips/Spec.lean`.
-/

namespace RuC.MipsText
open RuC.Mips
open Llvm (Ty Arith Cmp Un Inc Exp Args Stmt Stmts Func V World callF)

/-! ## The units of `okU` are plain -/

theorem temp_not_const (par : Nat → Bool) : ∀ (x : Exp), okE par x = true → tempE par x = true → isConstE x = false
  | .int _, _, h => by cases h
  | .bool _, _, h => by cases h
  | .str _, _, h => by cases h
  | .ident .., _, _ => rfl
  | .un _ x, h, k => by simp only [okE, Bool.and_eq_true] at h; exact temp_not_const par x h.1 k
  | .not x, h, k => by simp only [okE, Bool.and_eq_true] at h; exact temp_not_const par x h.1 k
  | .inc .., _, _ => rfl
  | .arith _ a b, h, k => by simp only [okE, Bool.and_eq_true] at h; exact temp_not_const par a h.1.1 k
  | .cmp .., h, _ => by cases h
  | .comma a b, h, k => by simp only [okE, Bool.and_eq_true] at h; exact temp_not_const par b h.2 k
  | .logic .., h, _ => by cases h
  | .ternary .., h, _ => by cases h
  | .assign none _ _ x, h, k => by simp only [okE, Bool.and_eq_true] at h; exact temp_not_const par x h.1 k
  | .assign (some o) _ _ x, h, _ => by
    simp only [okE, Bool.and_eq_true, decide_eq_true_eq] at h
    simp only [isConstE, decide_eq_false_iff_not]
    exact h.2
  | .call .., h, _ => by cases h

theorem plain_okE (par : Nat → Bool) : ∀ (x : Exp), okE par x = true → plainE x = true
  | .int _, _ => rfl
  | .bool _, _ => rfl
  | .str _, h => by cases h
  | .ident .., _ => rfl
  | .un _ x, h => by
    simp only [okE, Bool.and_eq_true] at h
    simp only [plainE, plain_okE par x h.1, temp_not_const par x h.1 h.2]; rfl
  | .not x, h => by
    simp only [okE, Bool.and_eq_true] at h
    simp only [plainE, plain_okE par x h.1, temp_not_const par x h.1 h.2]; rfl
  | .inc .., _ => rfl
  | .arith _ a b, h => by
    simp only [okE, Bool.and_eq_true] at h
    simp only [plainE, plain_okE par a h.1.1, plain_okE par b h.1.2, temp_not_const par a h.1.1 h.2]; rfl
  | .cmp .., h => by cases h
  | .comma a b, h => by
    simp only [okE, Bool.and_eq_true] at h
    simp only [plainE, plain_okE par a h.1, plain_okE par b h.2]; rfl
  | .logic .., h => by cases h
  | .ternary .., h => by cases h
  | .assign none _ _ x, h => by
    simp only [okE, Bool.and_eq_true] at h
    simp only [plainE, plain_okE par x h.1]
  | .assign (some o) _ _ x, h => by
    simp only [okE, Bool.and_eq_true] at h
    simp only [plainE, plain_okE par x h.1, h.2]; rfl
  | .call .., h => by cases h

theorem plain_okA (par : Nat → Bool) (pos : Nat → Option Nat) : ∀ (args : Args) (i : Nat), okA par pos i args = true → plainA args = true
  | .nil, _, _ => rfl
  | .cons x rest, i, h => by
    simp only [okA, Bool.and_eq_true] at h
    simp only [plainA, plain_okE par x h.1.1, plain_okA par pos rest (i + 1) h.2]; rfl

theorem plain_okCall (par : Nat → Bool) (pos : Nat → Option Nat) (x : Exp) (h : okCall par pos x = true) : plainE x = true := by
  cases x <;> first | cases h | skip
  simp only [okCall, Bool.and_eq_true] at h
  simp only [plainE, h.1, plain_okA par pos _ 0 h.2]; rfl

theorem plain_either {par : Nat → Bool} {pos : Nat → Option Nat} {x : Exp} (h : (okE par x || okCall par pos x) = true) : plainE x = true := by
  rcases Bool.or_eq_true _ _ ▸ h with h | h
  · exact plain_okE par x h
  · exact plain_okCall par pos x h

theorem plain_okX {par : Nat → Bool} {pos : Nat → Option Nat} (x : Exp) (h : okX par pos x = true) : plainE x = true := by
  unfold okX at h
  split at h
  · rcases Bool.or_eq_true _ _ ▸ h with h | h
    · exact plain_okE par _ h
    · simp only [plainE]; exact plain_okCall par pos _ h
  · exact plain_either h

theorem plain_okRet {par : Nat → Bool} {pos : Nat → Option Nat} (x : Exp) (h : okRet par pos x = true) : plainE x = true := by
  unfold okRet at h
  split at h
  · rfl
  · rfl
  · rcases Bool.or_eq_true _ _ ▸ h with h | h
    · simp only [Bool.and_eq_true] at h; exact plain_okE par _ h.1
    · exact plain_okCall par pos _ h

theorem plain_okO {par : Nat → Bool} (x : Option Exp) (h : okO par x = true) : plainO x = true := by
  cases x with
  | none => rfl
  | some x => exact plain_okE par x h

theorem plain_okD {par : Nat → Bool} {pos : Nat → Option Nat} (x : Option Exp) (h : okD par pos x = true) : plainO x = true := by
  cases x with
  | none => rfl
  | some x => exact plain_either h

mutual
theorem plain_okS (par : Nat → Bool) (pos : Nat → Option Nat) : ∀ (s : Stmt), okS par pos s = true → plainS s = true
  | .skip, _ => rfl
  | .break_, _ => rfl
  | .continue_, _ => rfl
  | .return_ none, _ => rfl
  | .expr x, h => plain_okX x h
  | .decls l, h => by
    simp only [okS, List.all_eq_true] at h
    simp only [plainS, List.all_eq_true]
    exact fun d hd => plain_okD _ (h d hd)
  | .if_ c a, h => by
    simp only [okS, Bool.and_eq_true] at h
    simp only [plainS, plain_okE par c h.1.1, plain_okS par pos a h.2]; rfl
  | .ifElse c a b, h => by
    simp only [okS, Bool.and_eq_true] at h
    simp only [plainS, plain_okE par c h.1.1.1.1, plain_okS par pos a h.1.2, plain_okS par pos b h.2]; rfl
  | .while_ c b, h => by
    simp only [okS, Bool.and_eq_true] at h
    simp only [plainS, plain_okE par c h.1.1, plain_okS par pos b h.2]; rfl
  | .do_ b c, h => by
    simp only [okS, Bool.and_eq_true] at h
    simp only [plainS, plain_okE par c h.1.1.1, plain_okS par pos b h.2]; rfl
  | .for_ i c inc b, h => by
    simp only [okS, Bool.and_eq_true] at h
    simp only [plainS, plain_okS par pos i h.1.1.1.1.1, plain_okO c h.1.1.1.1.2, plain_okO inc h.1.1.1.2, plain_okS par pos b h.1.2]; rfl
  | .block b, h => plain_okB par pos b h
  | .return_ (some x), h => plain_okRet x h
  | .switch_ .., h => by cases h
  | .case_ .., h => by cases h
  | .default_ .., h => by cases h

theorem plain_okB (par : Nat → Bool) (pos : Nat → Option Nat) : ∀ (b : Stmts), okB par pos b = true → plainB b = true
  | .nil, _ => rfl
  | .cons s rest, h => by
    simp only [okB, Bool.and_eq_true] at h
    simp only [plainB, plain_okS par pos s h.1, plain_okB par pos rest h.2]; rfl
end

theorem plain_unit {isLocal : Nat → Bool} {main : Nat} {gs : List (Nat × Ty × Option Exp)} {fs : List Func} (hok : okU isLocal main gs fs = true)
    (hg : ∀ d ∈ gs, plainO d.2.2 = true) : ∀ x ∈ unit gs fs, plainT x = true := by
  simp only [okU, Bool.and_eq_true, List.all_eq_true] at hok
  intro x hx
  rcases List.mem_append.1 hx with hx | hx
  · obtain ⟨d, hd, rfl⟩ := List.mem_map.1 hx
    exact hg d hd
  · obtain ⟨f, hf, rfl⟩ := List.mem_map.1 hx
    have h := hok.1.1.1.1.1 f hf
    simp only [okF, Bool.and_eq_true] at h
    exact plain_okB _ _ _ h.1.1.1

end RuC.MipsText

namespace RuC.MipsText.Props
open RuC.Mips RuC.MipsText RuC.Mips.Props
open Llvm (Ty Arith Cmp Un Inc Exp Args Stmt Stmts Func V World callF)

/-! ## C81: the text that is printed computes what the source means -/

/-- The whole program as characters: the printed text, with comments anywhere, is read by a reader of assembler lines, and what was read comes back to where it was started from, with
the answer of `main` in `$v0` and the globals as `main` left them.  Missing: as in `program_partial`. -/
theorem C81_text_runs_partial (isLocal : Nat → Bool) (main : Nat) (gs : List (Nat × Ty × Option Exp)) (fs : List Func) (e : Enc) (he : fresh e) (hok : okU isLocal main gs fs = true)
    (hsmall : (text isLocal main (unit gs fs) e).length < 4294967296) (hten : (emitU isLocal main (unit gs fs) e).2.busy 10 = false) (hg : ∀ d ∈ gs, plainO d.2.2 = true)
    (l : List Part) (hl : instrs l = text isLocal main (unit gs fs) e) (hc : ∀ c, Part.note c ∈ l → 10 ∉ c) :
    ∃ code, read (print l) = some code ∧
      ∀ (n G L P : Nat) (w w' : World) (v : Option V) (m : M), callF isLocal noLib main fs n main [] w = some (v, w') → m.pc = 0 → (m.reg R_SP).toNat = P →
        P % 4 = 0 ∧ G % 4 = 0 → (m.reg R_GP).toNat = G → 8060 ≤ G → G + 4 * gs.length ≤ L → L + n * roomOf isLocal main gs fs e + 4 ≤ P → P < 2147483648 →
        globalsAt isLocal gs G w m →
        ∃ m', Reach code m m' ∧ m'.pc = (m.reg R_RA).toNat ∧ (∀ u, v = some u → stands u (m'.reg R_V0)) ∧ globalsAt isLocal gs G w' m' := by
  refine ⟨text isLocal main (unit gs fs) e, ?_, ?_⟩
  · refine C95_unit_read_back (fun _ => false) isLocal main (unit gs fs) e (fun id => ?_) (plain_unit hok hg) l hl hc
    obtain ⟨d, b, h, hb⟩ := he.1 id
    rw [h]
    exact ⟨hb, fun r hr => by cases hr⟩
  · intro n G L P w w' v m hev hpc hsp hal hgp hG hlow hroom hhigh hgl
    exact program_partial isLocal main gs fs e he hok hsmall hten n G L P w w' v m hev hpc hsp hal hgp hG hlow hroom hhigh hgl

/-- The text of the program of two functions and a global, with a comment in front of it, is read, and what was read runs to its end with the answer. -/
example : ∃ code, read (print (.note [97, 98] :: (textOf total sums).map .instr)) = some code ∧ ∃ m', Reach code machine m' ∧ m'.pc = 0xfffff0 ∧ m'.reg R_V0 = 10#32 := by
  obtain ⟨code, hread, hrun⟩ := C81_text_runs_partial loc 201 total sums e0 e0_fresh sums_ok.1 (by have := sums_ok.2.1; unfold textOf at this; omega) sums_ok.2.2.1 (by decide +kernel)
    (.note [97, 98] :: (textOf total sums).map .instr) (by decide +kernel) (fun c hc => by
      rcases List.mem_cons.1 hc with hc | hc
      · cases hc; decide
      · obtain ⟨_, _, hx⟩ := List.mem_map.1 hc
        cases hx)
  refine ⟨code, hread, ?_⟩
  have h := sums_answer
  unfold answer at h
  obtain ⟨⟨v, w'⟩, hev, hv⟩ := Option.bind_eq_some_iff.1 h
  obtain ⟨m', r1, r2, r3, -⟩ := hrun 20 0x4000 0x4004 0x10000 world w' v machine hev
    rfl (by decide) (by decide) (by decide) (by decide) (by decide) (by rw [sums_ok.2.2.2]; decide) (by decide) (world_at machine rfl)
  refine ⟨m', r1, r2, ?_⟩
  cases v with
  | none => cases hv
  | some u =>
    cases u with
    | i32 x =>
      have hx : x.toInt = 10 := Option.some.inj hv
      have h1 : m'.reg R_V0 = x := r3 _ rfl
      rw [h1]
      exact BitVec.eq_of_toInt_eq (by rw [hx]; decide)
    | i1 b => cases hv
    | str s => cases hv

end RuC.MipsText.Props
