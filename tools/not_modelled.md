Of these, `fillBlanks` is called by a test only. `examples/linreg.go` is modelled (C79, C82) except what it prints and logs, `-debug`; the disk before it runs is modelled for `ToCSVDir` itself (C88), not for the program.
