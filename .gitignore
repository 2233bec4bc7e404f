.lake/
build/
