import re,sys,glob
want=set(sys.argv[1:])
for f in sorted(glob.glob('/verif/lean/Verif/Props/*.lean')):
    s=open(f).read()
    for m in re.finditer(r'(/--(?:(?!-/).)*-/\n)?theorem (C\d{2,3}_\w+)(.*?) :=(?: by| rfl)?\n',s,re.S):
        if m.group(2).split('_')[0] in want or not want:
            print('--',f.split('/')[-1]); print((m.group(1) or '')+'theorem '+m.group(2)+m.group(3)); print()
