import Verif.Model.ConfParser
/-
What is on the disk while settings are saved (conf_parser.c:250-270): `fopen` with "w" empties the file, or creates it;
stdio hands the text over in pieces, of which the sizes are not determined, the last one at `fclose`.
-/
namespace Wayuu

/-- conf_parser.c:253-268: the trees that may be found if the process stops during `write_conf`, or that another thread may
read meanwhile. -/
inductive SavingTree (fs : FS) (s : Serializable) : FS → Prop where
  | before : SavingTree fs s fs
  | cut (p : List Str) (text : Str) (k : Nat) : fs.openWrite s.path.s = some p → confText s.items = .ok text →
      SavingTree fs s (fs.update p (some (.file (text.take k))))

end Wayuu
